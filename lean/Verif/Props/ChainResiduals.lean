import Verif.Spec.ChainResiduals
import Verif.Props.ChainAccuracy
import Verif.Props.Residuals
import Verif.Props.Purity
/-
C207: the track table shows each true track once. C208: residuals of the complete chain. C209: purity of the complete chain.
-/
namespace BTA.Chain.Props
open BTA.Chain BTA.MergedColumns BTA.Line BTA.Dut BTA.Geo BTA.Spec BTA.Merge BTA.FindFile
open BTA.Fit (Sampling DutCfg)

theorem forall₂_filter {α β : Type} {R : α → β → Prop} {l : List α} {m : List β} (h : List.Forall₂ R l m) (P : α → Prop) (Q : β → Prop) [DecidablePred P] [DecidablePred Q]
    (hPQ : ∀ a b, a ∈ l → R a b → (P a ↔ Q b)) :
    List.Forall₂ (fun a b => a ∈ l ∧ P a ∧ R a b) (l.filter fun a => decide (P a)) (m.filter fun b => decide (Q b)) := by
  induction h with
  | nil => exact .nil
  | @cons a b l _ hab _ ih =>
    have hrest := (ih fun a b ha => hPQ a b (List.mem_cons_of_mem _ ha)).imp fun a' b h => (⟨List.mem_cons_of_mem _ h.1, h.2⟩ : a' ∈ a :: l ∧ P a' ∧ R a' b)
    have := hPQ _ _ List.mem_cons_self hab
    rw [List.filter_cons, List.filter_cons]
    simp only [decide_eq_true_eq]
    by_cases hp : P a
    · rw [if_pos hp, if_pos (this.mp hp)]
      exact .cons ⟨List.mem_cons_self, hp, hab⟩ hrest
    · rw [if_neg hp, if_neg fun h => hp (this.mpr h)]
      exact hrest

theorem forall₂_join {α β γ : Type} {R : α → β → Prop} {S : α → γ → Prop} {l : List α} {m : List β} {n : List γ} (h : List.Forall₂ R l m) (h' : List.Forall₂ S l n) :
    List.Forall₂ (fun c b => ∃ a, S a c ∧ R a b) n m := by
  induction h generalizing n with
  | nil => cases h'; exact .nil
  | cons hab _ ih =>
    cases h' with
    | cons hac h' => exact .cons ⟨_, hac, hab⟩ (ih h')

/-- The rows of the track table and the tracks. -/
theorem stored_rows (g : Config) (T0 : List (Clust ℝ)) (others : List (List (Clust ℝ))) (truth : Int → Truth) (out : List (Row (Value ℝ))) (hsort : SortedBy Row.ev out)
    (hlast : ∀ row ∈ out, ∃ x ∈ T0, row.ev ≤ x.ev) (hev : ∀ e, (∃ x ∈ T0, e ≤ x.ev) → (out.filter fun row => decide (row.ev = e)).length = (truth e).m)
    (hbit : ∀ (row : Row (Value ℝ)) (p : Int × Nat), row ∈ out → row.ev = p.1 → (out.filter fun x => decide (x.ev = p.1))[p.2]? = some row → ∀ d,
      (row.flag.toNat.testBit d = true ↔ HasCluster truth (T0 :: others) d p))
    (planes : List (BTA.Fit.Plane ℝ)) (hcut : ∀ P ∈ planes, ValidCuts P) (S' : Sampling) (cs1 : Nat) (hcs1 : 0 < cs1) (cfgs : List DutCfg) (hfit : ∀ c ∈ cfgs, c.fitDuts.Nodup)
    (tables : _) (h3 : BTA.Fit.fitTracks (lineEst g) planes false false S' 0 cs1 (out.map fitCand) cfgs = .ok tables) (c : DutCfg) (hc : c ∈ cfgs) 
    (rows : List (BTA.Fit.Row ℝ (Option Vec3))) (hrows : (c.dut, rows) ∈ tables) :
    SortedBy (fun r : BTA.Fit.Row ℝ (Option Vec3) => r.cand.event) rows ∧ ∃ L : List (Int × Nat), L.Nodup ∧ (∀ p, p ∈ L ↔ IsTrack truth T0 p ∧ Taken truth (T0 :: others) c p) ∧
      List.Forall₂ (fun (r : BTA.Fit.Row ℝ (Option Vec3)) (p : Int × Nat) => ∃ row ∈ out, row.ev = p.1 ∧ (out.filter fun x => decide (x.ev = p.1))[p.2]? = some row ∧
        Stored false c row.flag.toNat ∧ r.cand = fitCand row ∧ r.est = lineEst g (ownFit c) (fitCand row) c.dut) rows L := by
  have hT : SortedBy BTA.Fit.Cand.event (out.map fitCand) := by
    unfold SortedBy at hsort ⊢
    exact List.pairwise_map.mpr hsort
  have hflag : ∀ t ∈ out.map fitCand, t.flag < 2 ^ 32 := by
    intro t ht
    obtain ⟨row, -, rfl⟩ := List.mem_map.mp ht
    exact row.flag.isLt
  obtain ⟨L, hL1, hL2, hL3⟩ := exists_ranks Row.ev out
  have hstored : ∀ (c : DutCfg) (row : Row (Value ℝ)) (p : Int × Nat), row ∈ out → row.ev = p.1 → (out.filter fun x => decide (x.ev = p.1))[p.2]? = some row →
      (Stored false c row.flag.toNat ↔ Taken truth (T0 :: others) c p) := by
    intro c row p hrow he hr
    have hb := hbit row p hrow he hr
    classical
    unfold Stored Taken hitsIn
    have : ((ownFit c).filter fun d => row.flag.toNat.testBit d = true) = (ownFit c).filter fun d => HasCluster truth (T0 :: others) d p :=
      Finset.filter_congr fun d _ => hb d
    rw [this]
    simp only [hb]
    simp
  have h57 := BTA.Fit.Props.C57_flags (lineEst g) planes hcut false S' cs1 hcs1 (out.map fitCand) hT hflag cfgs hfit tables h3 c hc rows hrows
  have hrel : List.Forall₂ (fun (row : Row (Value ℝ)) (r : BTA.Fit.Row ℝ (Option Vec3)) => r.cand = fitCand row ∧ r.est = lineEst g (ownFit c) (fitCand row) c.dut)
      (out.filter fun row => decide (Stored false c row.flag.toNat)) rows := by
    have e1 : (out.filter fun row => decide (Stored false c row.flag.toNat)) = (out.zipIdx.filter fun p => decide (Stored false c p.1.flag.toNat)).map Prod.fst := by
      conv_lhs => rw [← List.zipIdx_map_fst 0 out]
      rw [List.filter_map]
      rfl
    have e2 : ((out.map fitCand).zipIdx.filter fun p => decide (Stored false c p.1.flag)) =
        (out.zipIdx.filter fun p => decide (Stored false c p.1.flag.toNat)).map (Prod.map fitCand id) := by
      rw [List.zipIdx_map, List.filter_map]
      rfl
    rw [e2, List.forall₂_map_left_iff] at h57
    rw [e1, List.forall₂_map_left_iff]
    exact h57.imp fun p r h => ⟨h.1, h.2.1⟩
  have hLtrack : ∀ p, p ∈ L ↔ IsTrack truth T0 p := by
    intro p
    rw [hL2]
    unfold IsTrack
    by_cases he : ∃ x ∈ T0, p.1 ≤ x.ev
    · rw [hev p.1 he]
      exact ⟨fun h => ⟨he, h⟩, fun h => h.2⟩
    · have : (out.filter fun x => decide (x.ev = p.1)) = [] := by
        rw [List.filter_eq_nil_iff]
        intro row hrow
        rw [decide_eq_true_eq]
        intro h
        exact he (h ▸ hlast row hrow)
      rw [this]
      simp [he]
  have hrsort : SortedBy (fun r : BTA.Fit.Row ℝ (Option Vec3) => r.cand.event) rows := by
    have e1 : rows.map (fun r => r.cand.event) = (out.filter fun row => decide (Stored false c row.flag.toNat)).map Row.ev := by
      symm
      rw [← List.forall₂_eq_eq_eq, List.forall₂_map_left_iff, List.forall₂_map_right_iff]
      refine hrel.imp fun row r h => ?_
      rw [h.1]
      rfl
    unfold SortedBy at hsort ⊢
    have : (rows.map fun r => r.cand.event).Pairwise (· ≤ ·) := by
      rw [e1]
      exact List.pairwise_map.mpr (hsort.filter _)
    exact List.pairwise_map.mp this
  classical
  refine ⟨hrsort, L.filter fun p => decide (Taken truth (T0 :: others) c p), hL1.filter _, ?_, ?_⟩
  · intro p
    rw [List.mem_filter, hLtrack, decide_eq_true_eq]
  · have h5 := forall₂_filter hL3 (fun row => Stored false c row.flag.toNat) (fun p => Taken truth (T0 :: others) c p) fun row p hmem hr => hstored c row p hmem hr.1 hr.2
    refine (forall₂_join h5 hrel).imp ?_
    rintro r p ⟨row, ⟨h6, h7⟩, h8, h9, h10, h11⟩
    exact ⟨row, h8, h10, h11, h9, h6, h7⟩

/-- C207: the complete chain as in C192: the table of `fit_tracks` shows each true track that fulfils the requirements of the user exactly once, and nothing else. -/
theorem C207_stored (duts : List (Bool × Pixels ℝ)) (g : Config) (beam : Option Alignment) (hb : SamePlanes beam g.duts) (hflat : Flat g.duts) (hn : g.duts.length = duts.length)
    (h10 : duts.length ≤ 10) (zs extrap : List Nat) (hz : zs.Perm (List.range g.duts.length)) (f : Nat) (ds : List Nat) (hf : zs = f :: ds) (err lev move : ℝ) (hlever : Lever g.duts zs lev)
    (S : Sampling) (cs : Nat) (hcs : 0 < cs) (T0 : List (Clust ℝ)) (others : List (List (Clust ℝ)))
    (hd : duts.length = others.length + 1) (hs0 : SortedBy Clust.ev T0) (hs : ∀ T ∈ others, SortedBy Clust.ev T)
    (hm : ∀ T ∈ T0 :: others, ∀ e, BTA.Spec.multiplicity Clust.ev T e < cs) (hsl : g.slices ≠ 0) (hsvd : Svd g) (hcv : Converges g)
    (truth : Int → Truth)
    (hI : ∀ e, (∃ x ∈ T0, e ≤ x.ev) → Blurred beam duts g.duts (eventOf (T0 :: others) e) f err lev move (truth e))
    (planes : List (BTA.Fit.Plane ℝ)) (hcut : ∀ P ∈ planes, ValidCuts P) (S' : Sampling) (cs1 : Nat) (hcs1 : cs ≤ cs1) (cfgs : List DutCfg) (hnd : (cfgs.map DutCfg.dut).Nodup)
    (hfit : ∀ c ∈ cfgs, c.fitDuts.Nodup) (hreq : ∀ c ∈ cfgs, 2 ≤ required c ∧ required c ≤ (ownFit c).card) (acc : ℝ)
    (hprec : ∀ c ∈ cfgs, ∀ p, IsTrack truth T0 p → 2 ≤ (usedDuts truth (T0 :: others) c p).card →
      Precise g.duts (usedDuts truth (T0 :: others) c p) ((truth p.1).v p.2) err)
    (hacc : ∀ c ∈ cfgs, ∀ p, IsTrack truth T0 p → Taken truth (T0 :: others) c p →
      accuracy g.duts (usedDuts truth (T0 :: others) c p) ((truth p.1).v p.2) err (zAt g.duts c.dut) ≤ acc) :
    ∃ merged out tables, mergeClusterData Clust.ev T0 others cs = .ok merged ∧
      findFile (telescopeSetting beam g.duts zs extrap) S 0 cs (merged.map (mergedRow duts)) = some (out, none) ∧
      BTA.Fit.fitTracks (lineEst g) planes false false S' 0 cs1 (out.map fitCand) cfgs = .ok tables ∧
      ∀ c ∈ cfgs, (∀ rows : List (Row (Value ℝ)), (∀ row ∈ rows, row ∈ out ∧ Fitted false c row.flag.toNat) → ∃ ts, fitChunk (lineConfig g (ownFit c)) (rows.map candOf) = .ok ts) ∧
        (∃ rows, (c.dut, rows) ∈ tables) ∧
        ∀ a, g.duts[c.dut]? = some a → ∀ rows, (c.dut, rows) ∈ tables →
          SortedBy (fun r : BTA.Fit.Row ℝ (Option Vec3) => r.cand.event) rows ∧ TableOf truth T0 (T0 :: others) c a err acc rows := by
  obtain ⟨merged, out, h1, h2, hlast, hev0⟩ := C190_candidates duts g.duts beam hb hflat hn h10 zs extrap hz f ds hf err lev move hlever S cs hcs T0 others hd hs0 hs hm
  have hev := fun e he => hev0 e (truth e) he (hI e he)
  obtain ⟨hsort, hmult, hflag3⟩ := out_facts duts g.duts beam hn h10 zs extrap hz S cs hcs T0 others hd hs0 hs hm merged out h1 h2
  have htab : (T0 :: others).length = duts.length := by rw [hd]; rfl
  have hT : SortedBy BTA.Fit.Cand.event (out.map fitCand) := by
    unfold SortedBy at hsort ⊢
    exact List.pairwise_map.mpr hsort
  have hflag : ∀ t ∈ out.map fitCand, t.flag < 2 ^ 32 := by
    intro t ht
    obtain ⟨row, -, rfl⟩ := List.mem_map.mp ht
    exact row.flag.isLt
  have hmul : ∀ e, BTA.Spec.multiplicity BTA.Fit.Cand.event (out.map fitCand) e < cs1 := by
    intro e
    refine lt_of_lt_of_le ?_ hcs1
    have : BTA.Spec.multiplicity BTA.Fit.Cand.event (out.map fitCand) e = BTA.Spec.multiplicity Row.ev out e := by
      unfold BTA.Spec.multiplicity
      rw [List.filter_map, List.length_map]
      rfl
    rw [this]
    exact hmult e
  obtain ⟨tables, h3, h4⟩ := BTA.Fit.Props.C24_tracks_table (lineEst g) planes hcut false S' cs1 (out.map fitCand) hT hflag hmul cfgs hnd hfit hreq
  have hbit : ∀ (row : Row (Value ℝ)) (p : Int × Nat), row ∈ out → row.ev = p.1 → (out.filter fun x => decide (x.ev = p.1))[p.2]? = some row → ∀ d,
      (row.flag.toNat.testBit d = true ↔ HasCluster truth (T0 :: others) d p) := by
    rintro row ⟨e, r⟩ hrow he hr d
    dsimp only at he hr
    subst he
    have hlast' := hlast row hrow
    have hout : ¬ d < duts.length → eventOf (T0 :: others) row.ev d = [] := by
      intro h
      unfold eventOf
      rw [List.getD_eq_getElem?_getD, List.getElem?_eq_none (by simp only [List.length_cons]; omega)]
      rfl
    by_cases hd32 : d < 32
    · rw [← BitVec.getLsbD, hflag3 row hrow d hd32]
      unfold HasCluster
      by_cases hdl : d < duts.length
      · rw [(hev row.ev hlast').2 r row hr d _ (List.getElem?_eq_getElem hdl), Option.isSome_map]
        simp [hdl]
      · rw [hout hdl]
        simp [hdl]
    · have e1 : row.flag.toNat.testBit d = false := by
        rw [← BitVec.getLsbD]
        exact BitVec.getLsbD_of_ge _ _ (by omega)
      rw [e1]
      unfold HasCluster
      rw [hout (by omega)]
      simp
  -- a row and its track
  have hrank : ∀ row ∈ out, ∃ r, (out.filter fun x => decide (x.ev = row.ev))[r]? = some row ∧ r < (truth row.ev).m := by
    intro row hrow
    obtain ⟨r, hr⟩ := List.getElem?_of_mem (show row ∈ out.filter fun x => decide (x.ev = row.ev) from List.mem_filter.mpr ⟨hrow, by simp⟩)
    refine ⟨r, hr, ?_⟩
    rw [← (hev row.ev (hlast row hrow)).1]
    exact (List.getElem?_eq_some_iff.mp hr).1
  have hmeas : ∀ c ∈ cfgs, ∀ row ∈ out, 2 ≤ hitsIn row.flag.toNat (ownFit c) → ∀ r, (out.filter fun x => decide (x.ev = row.ev))[r]? = some row →
      r < (truth row.ev).m ∧ Measured (lineConfig g (ownFit c)) (candOf row) ((truth row.ev).p r) ((truth row.ev).v r) err ∧
      fitError (lineConfig g (ownFit c)) (candOf row) ((truth row.ev).v r) err (zAt g.duts c.dut) =
        accuracy g.duts (usedDuts truth (T0 :: others) c (row.ev, r)) ((truth row.ev).v r) err (zAt g.duts c.dut) ∧
      ∀ (d : Nat) (a : Alignment) (x : Hit), g.duts[d]? = some a → candOf row d = some x → x.z = 0 ∧ Near ((truth row.ev).p r) ((truth row.ev).v r) err (placed a x) := by
    intro c hc row hrow hh r hr
    have hlast' := hlast row hrow
    have hrm : r < (truth row.ev).m := by
      rw [← (hev row.ev hlast').1]
      exact (List.getElem?_eq_some_iff.mp hr).1
    have hcard : 2 ≤ (usedDuts truth (T0 :: others) c (row.ev, r)).card := by
      classical
      have : usedDuts truth (T0 :: others) c (row.ev, r) = (ownFit c).filter fun d => row.flag.toNat.testBit d = true := by
        unfold usedDuts
        exact Finset.filter_congr fun d _ => (hbit row (row.ev, r) hrow rfl hr d).symm
      rw [this]
      exact hh
    have hne : (usedDuts truth (T0 :: others) c (row.ev, r)).Nonempty := Finset.card_pos.mp (by omega)
    exact ⟨hrm, measured_row beam duts g hb hflat hn truth (T0 :: others) htab f err lev move c row.ev r row (hI _ hlast') hrm
      ((hev row.ev hlast').2 r row hr) hne _ (hprec c hc (row.ev, r) ⟨hlast', hrm⟩ hcard)⟩
  have hz0 : ∀ row ∈ out, ∀ d < g.duts.length, ∀ h, candOf row d = some h → h.z = 0 := by
    intro row hrow d hd' h hh
    obtain ⟨r, hr, -⟩ := hrank row hrow
    rw [(hev row.ev (hlast row hrow)).2 r row hr d _ (List.getElem?_eq_getElem (show d < duts.length by omega)), Option.map_eq_some_iff] at hh
    obtain ⟨cl, -, rfl⟩ := hh
    exact clusterHit_z _ cl
  have hchunk : ∀ c ∈ cfgs, ∀ rows : List (Row (Value ℝ)), (∀ row ∈ rows, row ∈ out ∧ 2 ≤ hitsIn row.flag.toNat (ownFit c)) →
      ∃ ts, fitChunk (lineConfig g (ownFit c)) (rows.map candOf) = .ok ts := by
    intro c hc rows hrows
    refine BTA.Line.Props.C191_returns (lineConfig g (ownFit c)) hsl hsvd _ hflat ?_
    intro x hx
    obtain ⟨row, hrow, rfl⟩ := List.mem_map.mp hx
    obtain ⟨hrow', hst⟩ := hrows row hrow
    obtain ⟨r, hr, -⟩ := hrank row hrow'
    exact ⟨⟨_, _, _, (hmeas c hc row hrow' hst r hr).2.1⟩, fun d y hy hdl => hz0 row hrow' d hdl y hy⟩
  refine ⟨merged, out, tables, h1, h2, h3, fun c hc => ⟨?_, ?_, ?_⟩⟩
  · intro rows hrows
    exact hchunk c hc rows fun row hrow => ⟨(hrows row hrow).1, (hrows row hrow).2⟩
  · obtain ⟨rows, hrows, -⟩ := h4 c hc
    exact ⟨rows, hrows⟩
  intro a ha rows hrows
  have hdl : c.dut < duts.length := by
    rw [← hn]
    exact (List.getElem?_eq_some_iff.mp ha).1
  have hflata : FlatSensor a := hflat a (List.mem_of_getElem? ha)
  have hza : zAt g.duts c.dut = a.z := by
    unfold zAt
    rw [ha]
    rfl
  obtain ⟨hrs, L, hL1, hL2, hL3⟩ := stored_rows g T0 others truth out hsort hlast (fun e he => (hev e he).1) hbit planes hcut S' cs1 (by omega) cfgs hfit tables h3 c hc rows hrows
  refine ⟨hrs, L, hL1, hL2, hL3.imp ?_⟩
  rintro r ⟨e, n⟩ ⟨row, hrow, he, hr, hst, hcand, hest⟩
  · dsimp only at he hr
    subst he
    have hlast' := hlast row hrow
    have htwo : 2 ≤ hitsIn row.flag.toNat (ownFit c) := le_trans (hreq c hc).1 hst.2.1
    obtain ⟨hrm, hms, hfe, hnr⟩ := hmeas c hc row hrow htwo n hr
    obtain ⟨ts, hts⟩ := hchunk c hc [row] (fun row' h => by
      rw [List.mem_singleton] at h
      subst h
      exact ⟨hrow, htwo⟩)
    have hlen := (fitChunk_ok (lineConfig g (ownFit c)) hsl _ ts hts).1
    obtain ⟨t, rfl⟩ := List.length_eq_one_iff.mp hlen
    obtain ⟨e, he⟩ : ∃ e, t.est c.dut = some e :=
      Option.isSome_iff_exists.mp (((BTA.Line.Props.C146_all (lineConfig g (ownFit c)) hsl hcv _ [t] hts).2 0 t rfl c.dut).mpr (List.getElem?_eq_some_iff.mp ha).1)
    have hle := lineEst_fit g hsl (ownFit c) row (hz0 row hrow) [t] t hts rfl c.dut e he
    rw [hle] at hest
    obtain ⟨u, w, hloc⟩ := (hI row.ev hlast').crosses c.dut a ha n hrm
    obtain ⟨hpz, hac⟩ := BTA.Line.Props.C191_accuracy (lineConfig g (ownFit c)) hsl hsvd _ [t] hts 0 _ t rfl rfl _ _ err hms c.dut a e ha hflata he
    have hate : AtLocal a (globalPoint a e) (e.pos 0) (e.pos 1) := by
      unfold AtLocal globalPoint
      congr 2
      ext i
      fin_cases i
      · rfl
      · rfl
      · exact hpz
    have htaken : Taken truth (T0 :: others) c (row.ev, n) := by
      classical
      unfold Taken
      have hb' := hbit row (row.ev, n) hrow rfl hr
      refine ⟨fun d hd' => (hb' d).mp (hst.1 d hd'), ?_⟩
      have h5 := hst.2.1
      unfold hitsIn at h5
      rw [Finset.filter_congr fun d _ => (hb' d).symm]
      exact h5
    have hfe' := hacc c hc (row.ev, n) ⟨hlast', hrm⟩ htaken
    rw [← hfe] at hfe'
    have hdist : Real.sqrt ((e.pos 0 - u) ^ 2 + (e.pos 1 - w) ^ 2) ≤ acc := by
      rw [BTA.Line.Props.local_distance a hflata _ _ _ _ _ _ hate hloc]
      refine le_trans (hac ((truth row.ev).l n c.dut) ((hflata _).mp ⟨u, w, hloc⟩)) ?_
      rw [← hza]
      exact hfe'
    have hsh : storedHit c.dut r = (candOf row c.dut).map fun x => (x.x, x.y) := by
      unfold storedHit candOf
      rw [hcand]
      unfold fitCand
      dsimp only
      cases hitOf c.dut row.cols <;> rfl
    have hcl := (hev row.ev hlast').2 n row hr c.dut _ (List.getElem?_eq_getElem hdl)
    refine ⟨by rw [hcand]; rfl, ⟨u, w, e.pos 0, e.pos 1, hloc, by rw [hest], by rw [hest], hdist, ?_⟩, ?_⟩
    · intro h hh
      rw [hsh, Option.map_eq_some_iff] at hh
      obtain ⟨x, hx, rfl⟩ := hh
      obtain ⟨hx0, hxn⟩ := hnr c.dut a x ha hx
      have hres := BTA.Line.Props.C191_residual (lineConfig g (ownFit c)) hsl hsvd _ [t] hts 0 _ t rfl rfl _ _ err hms c.dut a e ha hflata he _ hx0 hxn
      refine ⟨?_, le_trans hres (by rw [← hza]; linarith)⟩
      have hat : AtLocal a (placed a x) x.x x.y := by
        unfold AtLocal placed
        rw [hx0]
      dsimp only
      rw [BTA.Line.Props.local_distance a hflata _ _ _ _ _ _ hat hloc]
      rw [hcl, Option.map_eq_some_iff] at hx
      obtain ⟨cl, hcl', rfl⟩ := hx
      obtain ⟨q, hq, hq2⟩ := (hI row.ev hlast').measured c.dut a _ ha (List.getElem?_eq_getElem hdl) n hrm cl hcl'
      have ham := List.mem_of_getElem? ha
      rw [sideways_beam beam g.duts hb a ham hflata q _ ⟨_, _, hq⟩ ⟨u, w, hloc⟩] at hq2
      rw [placed_clusterHit a _ cl q hq]
      exact hq2
    · rw [hsh, Option.isSome_map, hcl, Option.isSome_map]
      unfold HasCluster
      simp

/-! ### Counting the rows of such a table -/

/-- A number of rows of the table is a number of true tracks. -/
theorem number_table {truth : Int → Truth} {T0 : List (Clust ℝ)} {tables : List (List (Clust ℝ))} {c : DutCfg} {a : Alignment} {err acc : ℝ} {rows : List (BTA.Fit.Row ℝ (Option Vec3))}
    (ht : TableOf truth T0 tables c a err acc rows) (Q : BTA.Fit.Row ℝ (Option Vec3) → Prop) (P : Int × Nat → Prop)
    (h : ∀ r p, Shows truth tables c.dut a err acc r p → IsTrack truth T0 p → Taken truth tables c p → (Q r ↔ P p)) :
    number rows Q = Set.ncard {p | IsTrack truth T0 p ∧ Taken truth tables c p ∧ P p} := by
  obtain ⟨L, h1, h2, h3⟩ := ht
  have h3' : List.Forall₂ (fun r p => Shows truth tables c.dut a err acc r p ∧ p ∈ L) rows L := by
    clear h1 h2
    induction h3 with
    | nil => exact .nil
    | cons hab _ ih => exact .cons ⟨hab, List.mem_cons_self⟩ (ih.imp fun _ _ h => ⟨h.1, List.mem_cons_of_mem _ h.2⟩)
  rw [number_forall₂ h3' (Q := P) fun r p _ hr => h r p hr.1 ((h2 p).mp hr.2).1 ((h2 p).mp hr.2).2, number_nodup L h1]
  congr 1
  ext p
  rw [Set.mem_setOf_eq, Set.mem_setOf_eq, h2, and_assoc]

theorem shows_mem {truth : Int → Truth} {T0 : List (Clust ℝ)} {tables : List (List (Clust ℝ))} {c : DutCfg} {a : Alignment} {err acc : ℝ} {rows : List (BTA.Fit.Row ℝ (Option Vec3))}
    (ht : TableOf truth T0 tables c a err acc rows) (r : BTA.Fit.Row ℝ (Option Vec3)) (hr : r ∈ rows) : ∃ p, Shows truth tables c.dut a err acc r p := by
  obtain ⟨L, -, -, h3⟩ := ht
  clear * - h3 hr
  induction h3 with
  | nil => cases hr
  | cons hab _ ih =>
    rcases List.mem_cons.mp hr with rfl | hr
    · exact ⟨_, hab⟩
    · exact ih hr

/-- Each row is in one bin. -/
theorem number_bins {ρ : Type} (T : List ρ) (P : ρ → Prop) (edges : List ℝ) (he : ValidEdges edges) (v : ρ → ℝ) (hv : ∀ t ∈ T, P t → ∃ i, InBin edges i (v t)) :
    ∑ i ∈ Finset.range (edges.length - 1), (number T fun t => P t ∧ InBin edges i (v t)) = number T P := by
  classical
  induction T with
  | nil => simp [number]
  | cons t T ih =>
    have hc : ∀ Q : ρ → Prop, number (t :: T) Q = (if Q t then 1 else 0) + number T Q := by
      intro Q
      unfold number
      rw [List.filter_cons]
      by_cases h : Q t <;> simp [h, Nat.add_comm]
    simp only [hc, Finset.sum_add_distrib]
    rw [ih fun t ht => hv t (List.mem_cons_of_mem _ ht)]
    congr 1
    by_cases hp : P t
    · obtain ⟨i, hi⟩ := hv t List.mem_cons_self hp
      rw [if_pos hp, Finset.sum_eq_single i]
      · rw [if_pos ⟨hp, hi⟩]
      · intro j _ hj
        exact if_neg fun h => hj (BTA.Binning.inBin_unique he h.2 hi)
      · intro h
        obtain ⟨lo, hi', -, h2, -⟩ := hi
        have := (List.getElem?_eq_some_iff.mp h2).1
        exact absurd (Finset.mem_range.mpr (by omega)) h
    · rw [if_neg hp]
      exact Finset.sum_eq_zero fun i _ => if_neg fun h => hp h.1

theorem abs_le_of_root (x y b : ℝ) (h : Real.sqrt (x ^ 2 + y ^ 2) ≤ b) : |x| ≤ b ∧ |y| ≤ b := by
  constructor
  · refine le_trans ?_ h
    rw [← Real.sqrt_sq_eq_abs]
    exact Real.sqrt_le_sqrt (by nlinarith [sq_nonneg y])
  · refine le_trans ?_ h
    rw [← Real.sqrt_sq_eq_abs]
    exact Real.sqrt_le_sqrt (by nlinarith [sq_nonneg x])

/-- The mean of small values is small. -/
theorem mean_le (l : List ℝ) (b m : ℝ) (h : ∀ v ∈ l, |v| ≤ b) (hm : mean l = some m) : |m| ≤ b := by
  unfold mean at hm
  split at hm
  · cases hm
  · rename_i hne
    obtain rfl := Option.some.inj hm
    have hpos : (0 : ℝ) < l.length := by
      have := List.length_pos_of_ne_nil hne
      exact_mod_cast this
    rw [abs_div, abs_of_pos hpos, div_le_iff₀ hpos]
    have : ∀ l : List ℝ, (∀ v ∈ l, |v| ≤ b) → |l.sum| ≤ b * l.length := by
      intro l hl
      induction l with
      | nil => simp
      | cons v l ih =>
        rw [List.sum_cons, List.length_cons, Nat.cast_add, Nat.cast_one]
        have h1 := abs_add_le v l.sum
        have h2 := hl v List.mem_cons_self
        have h3 := ih fun v hv => hl v (List.mem_cons_of_mem _ hv)
        linarith
    exact this l h

/-! ### C208 -/
section
open BTA.Residuals BTA.Residuals.Spec

/-- C208: the residuals of a table as in C207. All residuals are at most `err + acc`, so no other bins of the residual histograms are filled, no mean residual and no mean distance is larger.
If the bins contain all these values, each taken track that is seen by the DUT is counted once. -/
theorem C208_residuals (truth : Int → Truth) (T0 : List (Clust ℝ)) (tables : List (List (Clust ℝ))) (c : DutCfg) (a : Alignment) (err acc : ℝ) (herr : 0 ≤ err + acc)
    (rows : List (BTA.Fit.Row ℝ (Option Vec3))) (hsort : SortedBy (fun r : BTA.Fit.Row ℝ (Option Vec3) => r.cand.event) rows) (ht : TableOf truth T0 tables c a err acc rows)
    (chi2 : BTA.Fit.Row ℝ (Option Vec3) → ℝ) (s : Setup ℝ) (hlx : s.limitX = none) (hly : s.limitY = none) (hsq : s.sqrt = Real.sqrt) (cs : Nat) (hcs : 0 < cs)
    (e : Edges ℝ) (h : Hists ℝ) (hr : residuals s (rows.map (residualRow c.dut chi2)) cs = .ok (e, h))
    (hrx : ValidEdges e.resX) (hry : ValidEdges e.resY) (hpx : ValidEdges e.posX) (hpy : ValidEdges e.posY) (hex : ValidEdges s.edges2dX) (hey : ValidEdges s.edges2dY) :
    let seen := fun P => Set.ncard {p | IsTrack truth T0 p ∧ Taken truth tables c p ∧ HasCluster truth tables c.dut p ∧ Crosses truth a c.dut (fun _ _ => true) P p}
    (∀ i, h.resX i ≠ 0 → ∃ v, |v| ≤ err + acc ∧ InBin e.resX i v) ∧ (∀ i, h.resY i ≠ 0 → ∃ v, |v| ≤ err + acc ∧ InBin e.resY i v) ∧
    ((∀ v, |v| ≤ err + acc → ∃ i, InBin e.resX i v) → ∑ i ∈ Finset.range (e.resX.length - 1), h.resX i = seen fun _ _ => True) ∧
    ((∀ v, |v| ≤ err + acc → ∃ i, InBin e.resY i v) → ∑ i ∈ Finset.range (e.resY.length - 1), h.resY i = seen fun _ _ => True) ∧
    (∀ i m, h.xx.final i = some m ∨ h.yy.final i = some m ∨ h.yx.final i = some m ∨ h.xy.final i = some m → |m| ≤ err + acc) ∧
    ∀ i j, |h.mean2d (i, j)| ≤ err + acc ∧
      (let pixel := fun u w => InBin s.edges2dX i u ∧ InBin s.edges2dY j w
       Clear truth T0 tables c a (fun _ _ => true) acc pixel → h.hits2d (i, j) = seen pixel) := by
  intro seen
  have hsT : SortedBy Track.event (rows.map (residualRow c.dut chi2)) := by
    unfold SortedBy at hsort ⊢
    exact List.pairwise_map.mpr hsort
  obtain ⟨g1, g2, g3, g4, g5, g6, -⟩ := BTA.Residuals.Props.C44_given_binning_partial s _ hsT cs hcs e h hr hrx hry hpx hpy
  have hin : ∀ v, Inside s.limitX v ∧ Inside s.limitY v := by
    intro v
    rw [hlx, hly]
    exact ⟨fun _ h => (nomatch h), fun _ h => (nomatch h)⟩
  have hroot : ∀ t ∈ rows.map (residualRow c.dut chi2), Found t → Real.sqrt (resX t ^ 2 + resY t ^ 2) ≤ err + acc := by
    intro t htm hf
    obtain ⟨r, hrm, rfl⟩ := List.mem_map.mp htm
    obtain ⟨p, hp⟩ := shows_mem ht r hrm
    obtain ⟨u, w, x, y, -, hx, hy, -, hh⟩ := hp.near
    obtain ⟨q, hq⟩ := Option.isSome_iff_exists.mp hf.1
    have := (hh q hq).2
    have e1 : resX (residualRow c.dut chi2 r) = q.1 - x := by
      unfold resX hitX residualRow at *
      dsimp only at hq ⊢
      rw [hq, hx]
      rfl
    have e2 : resY (residualRow c.dut chi2 r) = q.2 - y := by
      unfold resY hitY residualRow at *
      dsimp only at hq ⊢
      rw [hq, hy]
      rfl
    rw [e1, e2]
    exact this
  have hsmall : ∀ t ∈ rows.map (residualRow c.dut chi2), Found t → |resX t| ≤ err + acc ∧ |resY t| ≤ err + acc := fun t htm hf => abs_le_of_root _ _ _ (hroot t htm hf)
  have hfound : ∀ r p, Shows truth tables c.dut a err acc r p → (Found (residualRow c.dut chi2 r) ↔ HasCluster truth tables c.dut p) := by
    intro r p hp
    rw [← hp.hit]
    exact and_iff_left rfl
  have htotal : number (rows.map (residualRow c.dut chi2)) Found = seen fun _ _ => True := by
    rw [number_map]
    refine number_table ht _ (fun p => HasCluster truth tables c.dut p ∧ Crosses truth a c.dut (fun _ _ => true) (fun _ _ => True) p) fun r p hp _ _ => ?_
    rw [hfound r p hp]
    obtain ⟨u, w, x, y, hloc, -⟩ := hp.near
    exact ⟨fun h => ⟨h, u, w, hloc, rfl, trivial⟩, fun h => h.1⟩
  have hne : ∀ (P : Track ℝ → Prop), number (rows.map (residualRow c.dut chi2)) P ≠ 0 → ∃ t ∈ rows.map (residualRow c.dut chi2), P t := by
    intro P hP
    classical
    unfold number at hP
    obtain ⟨t, htm⟩ := List.exists_mem_of_ne_nil _ (List.ne_nil_of_length_pos (Nat.pos_of_ne_zero hP))
    exact ⟨t, (List.mem_filter.mp htm).1, of_decide_eq_true (List.mem_filter.mp htm).2⟩
  have hval : ∀ (P : Track ℝ → Prop) (f : Track ℝ → ℝ) (b : ℝ), (∀ t ∈ rows.map (residualRow c.dut chi2), P t → |f t| ≤ b) →
      ∀ v ∈ valuesOf (rows.map (residualRow c.dut chi2)) P f, |v| ≤ b := by
    intro P f b hP v hv
    classical
    unfold valuesOf at hv
    obtain ⟨t, htm, rfl⟩ := List.mem_map.mp hv
    exact hP t (List.mem_filter.mp htm).1 (of_decide_eq_true (List.mem_filter.mp htm).2)
  refine ⟨?_, ?_, ?_, ?_, ?_, ?_⟩
  · intro i hi
    rw [g1] at hi
    obtain ⟨t, htm, hf, -, -, hb⟩ := hne _ hi
    exact ⟨_, (hsmall t htm hf).1, hb⟩
  · intro i hi
    rw [g2] at hi
    obtain ⟨t, htm, hf, -, -, hb⟩ := hne _ hi
    exact ⟨_, (hsmall t htm hf).2, hb⟩
  · intro hcov
    rw [← htotal, ← number_bins _ Found e.resX hrx resX fun t htm hf => hcov _ (hsmall t htm hf).1]
    refine Finset.sum_congr rfl fun i _ => ?_
    rw [g1]
    congr 1
    funext t
    simp [(hin _).1, (hin _).2]
  · intro hcov
    rw [← htotal, ← number_bins _ Found e.resY hry resY fun t htm hf => hcov _ (hsmall t htm hf).2]
    refine Finset.sum_congr rfl fun i _ => ?_
    rw [g2]
    congr 1
    funext t
    simp [(hin _).1, (hin _).2]
  · intro i m hm
    rw [g3.avg_eq, g4.avg_eq, g5.avg_eq, g6.avg_eq] at hm
    rcases hm with hm | hm | hm | hm
    · exact mean_le _ _ _ (hval _ _ _ fun t htm hP => (hsmall t htm hP.1).1) hm
    · exact mean_le _ _ _ (hval _ _ _ fun t htm hP => (hsmall t htm hP.1).2) hm
    · exact mean_le _ _ _ (hval _ _ _ fun t htm hP => (hsmall t htm hP.1).2) hm
    · exact mean_le _ _ _ (hval _ _ _ fun t htm hP => (hsmall t htm hP.1).1) hm
  · intro i j
    obtain ⟨k1, -, k3⟩ := BTA.Residuals.Props.C44_pixel_map s _ hsT cs hcs e h hr hex hey i j
    refine ⟨?_, ?_⟩
    · generalize hmn : mean (valuesOf (rows.map (residualRow c.dut chi2)) (fun t => Found t ∧ InBin s.edges2dX i t.ix ∧ InBin s.edges2dY j t.iy)
        fun t => s.sqrt (resX t * resX t + resY t * resY t)) = mn at k3
      cases mn with
      | none =>
        rw [Option.some.inj k3, abs_zero]
        exact herr
      | some m =>
        rw [Option.some.inj k3]
        refine mean_le _ _ _ (hval _ _ _ fun t htm hP => ?_) hmn
        rw [hsq, abs_of_nonneg (Real.sqrt_nonneg _), ← sq, ← sq]
        exact hroot t htm hP.1
    · intro pixel hclear
      rw [k1, number_map]
      refine number_table ht _ (fun p => HasCluster truth tables c.dut p ∧ Crosses truth a c.dut (fun _ _ => true) pixel p) fun r p hp hit htk => ?_
      rw [hfound r p hp]
      refine and_congr_right fun _ => ?_
      obtain ⟨u, w, x, y, hloc, hx, hy, hd, -⟩ := hp.near
      have := hclear p hit htk u w hloc x y hd
      unfold residualRow Crosses
      dsimp only
      rw [hx, hy]
      constructor
      · exact fun h => ⟨u, w, hloc, this.mp ⟨rfl, h⟩⟩
      · rintro ⟨u', w', hloc', h⟩
        obtain ⟨rfl, rfl⟩ := atLocal_inj _ _ _ _ _ _ hloc hloc'
        exact (this.mpr h).2

end

/-! ### C209 -/
section
open BTA.Purity BTA.Purity.Spec

/-- C209: the purity of a table as in C207. If the cut is larger than `err + acc`, all hits are pure: the purity is 100 % in every bin with hits. -/
theorem C209_purity (truth : Int → Truth) (T0 : List (Clust ℝ)) (tables : List (List (Clust ℝ))) (c : DutCfg) (a : Alignment) (err acc : ℝ)
    (rows : List (BTA.Fit.Row ℝ (Option Vec3))) (hsort : SortedBy (fun r : BTA.Fit.Row ℝ (Option Vec3) => r.cand.event) rows) (ht : TableOf truth T0 tables c a err acc rows)
    (s : Setup ℝ) (hx : s.extentX.1 < s.extentX.2) (hy : s.extentY.1 < s.extentY.2) (hsq : s.sqrt = Real.sqrt) (cut : ℝ) (hcut : s.cut = some cut) (hlarge : err + acc < cut)
    (hrx : s.rangeX = none) (hry : s.rangeY = none) (h0 : ∀ r ∈ rows, storedHit c.dut r ≠ some (0, 0)) (cs : Nat) (hcs : 0 < cs) (m : Maps)
    (h : dutMaps s (rows.map (purityRow c.dut)) cs = .ok m) (i j : Nat) :
    m.pure (i, j) = m.total (i, j) ∧ m.purity (i, j) = (if m.total (i, j) = 0 then 0 else 100) ∧
      (let bin := fun u w => InBin (edgesX s) i u ∧ InBin (edgesY s) j w
       Clear truth T0 tables c a (fun _ _ => true) err bin →
        m.total (i, j) = Set.ncard {p | IsTrack truth T0 p ∧ Taken truth tables c p ∧ HasCluster truth tables c.dut p ∧ Crosses truth a c.dut (fun _ _ => true) bin p}) := by
  have hsT : SortedBy Row.event (rows.map (purityRow c.dut)) := by
    unfold SortedBy at hsort ⊢
    exact List.pairwise_map.mpr hsort
  have hroot : ExactRoot s.sqrt (rows.map (purityRow c.dut)) := by
    intro r _ q _
    rw [hsq]
    exact ⟨Real.sqrt_nonneg _, Real.sq_sqrt (by positivity)⟩
  obtain ⟨g1, g2, -, g4, g5⟩ := BTA.Purity.Props.C53_map_partial s _ hsT cs hcs hx hy hroot (by rw [hcut]; exact fun h => by cases h) (by
    intro r hr
    obtain ⟨r', hr', rfl⟩ := List.mem_map.mp hr
    exact h0 r' hr') m h i j
  have hpure : ∀ r ∈ rows.map (purityRow c.dut), HitIn s i j r → PureHit s r := by
    intro t htm hhit
    obtain ⟨r, hrm, rfl⟩ := List.mem_map.mp htm
    obtain ⟨p, hp⟩ := shows_mem ht r hrm
    obtain ⟨u, w, x, y, -, hx, hy, -, hh⟩ := hp.near
    obtain ⟨q, hq, -⟩ := hhit
    have := (hh q hq).2
    refine ⟨rfl, ?_, ?_, q, Real.sqrt ((q.1 - x) ^ 2 + (q.2 - y) ^ 2), cut, hq, Real.sqrt_nonneg _, ?_, hcut, lt_of_le_of_lt this hlarge⟩
    · rw [hrx]
      exact fun _ h => by cases h
    · rw [hry]
      exact fun _ h => by cases h
    · rw [Real.sq_sqrt (by positivity)]
      unfold purityRow
      dsimp only
      rw [hx, hy]
      rfl
  have heq : (number (rows.map (purityRow c.dut)) fun r => PureHit s r ∧ HitIn s i j r) = number (rows.map (purityRow c.dut)) (HitIn s i j) := by
    classical
    unfold number
    congr 1
    refine List.filter_congr fun r hr => ?_
    rw [decide_eq_decide]
    exact ⟨fun h => h.2, fun h => ⟨hpure r hr h, h⟩⟩
  refine ⟨by rw [g1, g2, heq], ?_, ?_⟩
  · split
    · rename_i hz
      exact g4 (g1 ▸ hz)
    · rename_i hz
      rw [g1] at hz
      rw [g5 hz, heq]
      have : (number (rows.map (purityRow c.dut)) (HitIn s i j) : ℝ) ≠ 0 := by exact_mod_cast hz
      rw [mul_div_assoc, div_self this, mul_one]
      norm_num
      rfl
  · intro bin hclear
    rw [g1, number_map]
    refine number_table ht _ (fun p => HasCluster truth tables c.dut p ∧ Crosses truth a c.dut (fun _ _ => true) bin p) fun r p hp hit htk => ?_
    obtain ⟨u, w, x, y, hloc, -, -, -, hh⟩ := hp.near
    constructor
    · rintro ⟨q, hq, hb⟩
      exact ⟨hp.hit.mp (by rw [show storedHit c.dut r = some q from hq]; rfl), u, w, hloc, (hclear p hit htk u w hloc q.1 q.2 (hh q hq).1).mp ⟨rfl, hb⟩⟩
    · rintro ⟨hc, u', w', hloc', hb⟩
      obtain ⟨rfl, rfl⟩ := atLocal_inj _ _ _ _ _ _ hloc hloc'
      obtain ⟨q, hq⟩ := Option.isSome_iff_exists.mp (hp.hit.mpr hc)
      exact ⟨q, hq, ((hclear p hit htk u w hloc q.1 q.2 (hh q hq).1).mpr hb).2⟩

end

/-! ### Example: the data of C192, with errors of up to 0.5. -/

theorem blStored (S S' : Sampling) : ∃ (g : Config) (merged : _) (out : List (Row (Value ℝ))) (tables : _) (rows : List (BTA.Fit.Row ℝ (Option Vec3))),
    mergeClusterData Clust.ev [exClust 0.5, exClust 10] [[exClust (-0.25)], [exClust 9.75, exClust 0]] 10 = .ok merged ∧
    findFile (telescopeSetting exBeam g.duts [0, 1, 2] [0, 1, 2]) S 0 10 (merged.map (mergedRow exDuts)) = some (out, none) ∧
    BTA.Fit.fitTracks (lineEst g) [] false false S' 0 10 (out.map fitCand) [⟨1, [0, 2], [], false, none⟩] = .ok tables ∧ (1, rows) ∈ tables ∧
    SortedBy (fun r : BTA.Fit.Row ℝ (Option Vec3) => r.cand.event) rows ∧
    TableOf exTruth [exClust 0.5, exClust 10] blTables ⟨1, [0, 2], [], false, none⟩ ⟨0, 0, 1, 0, 0, 0⟩ 0.5 0.5 rows := by
  obtain ⟨svd0, h0⟩ := BTA.AlignTel.exists_svd
  let g : Config := ⟨exAls, [], fun _ => (0, 0), fun rows => some (svd0 rows), 4, fun _ => 0⟩
  have hT : ∀ T ∈ blTables, ∀ c ∈ T, c.ev = 0 := by
    intro T hT c hc
    simp only [blTables, List.mem_cons, List.not_mem_nil, or_false] at hT
    rcases hT with rfl | rfl | rfl <;> simp only [List.mem_cons, List.not_mem_nil, or_false] at hc
    · rcases hc with rfl | rfl <;> rfl
    · subst hc; rfl
    · rcases hc with rfl | rfl <;> rfl
  have hsorted : ∀ T ∈ blTables, SortedBy Clust.ev T := by
    intro T hT'
    unfold SortedBy
    apply List.pairwise_of_forall_mem_list
    intro a ha b hb
    rw [hT T hT' a ha, hT T hT' b hb]
  have hz0 : zAt exAls 0 = 0 := rfl
  have hz1 : zAt exAls 1 = 1 := rfl
  have hz2 : zAt exAls 2 = 2 := rfl
  have hmean : zMean exAls {0, 2} = 1 := by
    unfold zMean
    rw [Finset.sum_pair (by decide), Finset.card_pair (by decide), hz0, hz2]
    norm_num
  have hspread : zSpread exAls {0, 2} = Real.sqrt 2 := by
    unfold zSpread
    rw [Finset.sum_pair (by decide), hmean, hz0, hz2]
    norm_num
  obtain ⟨merged, out, tables, h1, h2, h3, h4⟩ := C207_stored exDuts g exBeam exPlanes blFlat rfl (by decide) [0, 1, 2] [0, 1, 2] (show [0, 1, 2].Perm (List.range 3) by decide) 0 [1, 2] rfl
    0.5 1 0 blLever S 10 (by decide)
    [exClust 0.5, exClust 10] [[exClust (-0.25)], [exClust 9.75, exClust 0]] rfl (hsorted _ (by simp [blTables])) (fun T h => hsorted T (by simp [blTables] at h ⊢; tauto))
    (by
      intro T h e
      refine lt_of_le_of_lt (List.length_filter_le _ _) ?_
      simp only [List.mem_cons, List.not_mem_nil, or_false] at h
      rcases h with rfl | rfl | rfl <;> decide)
    (show 4 ≠ 0 by decide) (by
      intro rows v hv
      rw [← Option.some.inj hv]
      exact h0 rows) (fun _ => rfl) exTruth (fun e _ => blBlurred_all e) [] (fun P hP => by cases hP) S' 10 (le_refl _) [⟨1, [0, 2], [], false, none⟩] (by decide) (by decide) (by decide) 0.5
    (by
      intro c hc p hp _
      rw [List.mem_singleton] at hc
      subst hc
      have hu : usedDuts exTruth blTables ⟨1, [0, 2], [], false, none⟩ p = {0, 2} := by
        rcases (blIsTrack p).mp hp with rfl | rfl
        · exact blUsed 0 (by decide)
        · exact blUsed 1 (by decide)
      show Precise exAls (usedDuts exTruth blTables ⟨1, [0, 2], [], false, none⟩ p) _ _
      rw [hu]
      refine ⟨by simp [exTruth], ?_⟩
      rw [hspread, Finset.card_pair (by decide)]
      have : (0 : ℝ) < Real.sqrt 2 := Real.sqrt_pos.mpr (by norm_num)
      norm_num)
    (by
      intro c hc p hp _
      rw [List.mem_singleton] at hc
      subst hc
      have hu : usedDuts exTruth blTables ⟨1, [0, 2], [], false, none⟩ p = {0, 2} := by
        rcases (blIsTrack p).mp hp with rfl | rfl
        · exact blUsed 0 (by decide)
        · exact blUsed 1 (by decide)
      show accuracy exAls (usedDuts exTruth blTables ⟨1, [0, 2], [], false, none⟩ p) _ _ (zAt exAls 1) ≤ _
      rw [hu]
      unfold accuracy
      rw [hmean, hz1, sub_self, abs_zero, zero_mul, add_zero])
  obtain ⟨-, ⟨rows, hrows⟩, h5⟩ := h4 _ List.mem_cons_self
  obtain ⟨h6, h7⟩ := h5 ⟨0, 0, 1, 0, 0, 0⟩ rfl rows hrows
  exact ⟨g, merged, out, tables, rows, h1, h2, h3, hrows, h6, h7⟩

/-- Settings of `calculate_residuals`: one bin of residuals up to 2, one bin of positions, one pixel. -/
noncomputable def exResiduals : BTA.Residuals.Setup ℝ := ⟨none, none, [-5, 15], [-1, 1], fun _ => some [-2, 2], fun _ => some [-2, 2], fun _ => some [-5, 15], fun _ => some [-1, 1], Real.sqrt⟩

/-- C208: the residual histogram of DUT 1 has the one track that is seen by this DUT, the mean residual is not larger than 1. -/
example (S S' : Sampling) (chi2 : BTA.Fit.Row ℝ (Option Vec3) → ℝ) : ∃ (g : Config) (merged : _) (out : List (Row (Value ℝ))) (tables : _) (rows : List (BTA.Fit.Row ℝ (Option Vec3))) (e : _) (h : _),
    mergeClusterData Clust.ev [exClust 0.5, exClust 10] [[exClust (-0.25)], [exClust 9.75, exClust 0]] 10 = .ok merged ∧
    findFile (telescopeSetting exBeam g.duts [0, 1, 2] [0, 1, 2]) S 0 10 (merged.map (mergedRow exDuts)) = some (out, none) ∧
    BTA.Fit.fitTracks (lineEst g) [] false false S' 0 10 (out.map fitCand) [⟨1, [0, 2], [], false, none⟩] = .ok tables ∧ (1, rows) ∈ tables ∧
    BTA.Residuals.residuals exResiduals (rows.map (residualRow 1 chi2)) 10 = .ok (e, h) ∧ h.resX 0 = 1 ∧ h.resY 0 = 1 ∧ h.hits2d (0, 0) = 1 ∧ |h.mean2d (0, 0)| ≤ 1 := by
  obtain ⟨g, merged, out, tables, rows, h1, h2, h3, h4, hsort, ht⟩ := blStored S S'
  have hin : (fun u w => InBin exResiduals.edges2dX 0 u ∧ InBin exResiduals.edges2dY 0 w) = fun u w => InBin exSetup.edgesX 0 u ∧ InBin exSetup.edgesY 0 w := rfl
  have hlen : number rows (fun _ => True) = 2 := by
    rw [number_table ht (fun _ => True) (fun p => Crosses exTruth ⟨0, 0, 1, 0, 0, 0⟩ 1 exSetup.enabled (fun _ _ => True) p) (by
      intro r p hp _ _
      obtain ⟨u, w, x, y, hloc, -⟩ := hp.near
      exact ⟨fun _ => ⟨u, w, hloc, rfl, trivial⟩, fun _ => trivial⟩), (blSets _).1]
    exact exTracks (fun _ _ => True) trivial trivial
  have hlen' : rows.length = 2 := by
    unfold number at hlen
    simpa using hlen
  have hsT : SortedBy BTA.Residuals.Track.event (rows.map (residualRow 1 chi2)) := by
    unfold SortedBy at hsort ⊢
    exact List.pairwise_map.mpr hsort
  obtain ⟨⟨e, h⟩, hok⟩ := (BTA.Residuals.Props.C44_outcome exResiduals (rows.map (residualRow 1 chi2)) hsT 10 (by decide) (by
    intro e
    refine lt_of_le_of_lt (List.length_filter_le _ _) ?_
    rw [List.length_map, hlen']
    decide)).2 (fun l => ⟨rfl, rfl, rfl, rfl⟩) (by
    intro hnil
    have := congrArg List.length hnil
    rw [List.length_map, hlen'] at this
    exact absurd this (by decide))
  have v2 : ValidEdges [(-2 : ℝ), 2] := ⟨le_refl _, by simp⟩
  have vx : ValidEdges [(-5 : ℝ), 15] := ⟨le_refl _, by simp; norm_num⟩
  have vy : ValidEdges [(-1 : ℝ), 1] := ⟨le_refl _, by simp⟩
  have hedges : e = ⟨[-2, 2], [-2, 2], [-5, 15], [-1, 1]⟩ := by
    obtain ⟨-, n, -, he⟩ := BTA.Residuals.residuals_eq exResiduals _ hsT 10 (by decide) e h hok
    exact (Except.ok.inj he).symm
  subst hedges
  obtain ⟨-, -, r3, r4, -, r6⟩ := C208_residuals exTruth [exClust 0.5, exClust 10] blTables ⟨1, [0, 2], [], false, none⟩ ⟨0, 0, 1, 0, 0, 0⟩ 0.5 0.5 (by norm_num) rows hsort ht chi2
    exResiduals rfl rfl rfl 10 (by decide) _ h hok v2 v2 vx vy vx vy
  have hcov : ∀ v : ℝ, |v| ≤ 0.5 + 0.5 → ∃ i, InBin [(-2 : ℝ), 2] i v := by
    intro v hv
    rw [abs_le] at hv
    exact ⟨0, -2, 2, rfl, rfl, by linarith [hv.1], .inl (by linarith [hv.2])⟩
  have hbin0 : InBin exSetup.edgesX 0 0 ∧ InBin exSetup.edgesY 0 0 := exInBin 0 (.inl rfl)
  have hset : ∀ P : ℝ → ℝ → Prop, P 0 0 → Set.ncard {p | IsTrack exTruth [exClust 0.5, exClust 10] p ∧ Taken exTruth blTables ⟨1, [0, 2], [], false, none⟩ p ∧ HasCluster exTruth blTables 1 p ∧
      Crosses exTruth ⟨0, 0, 1, 0, 0, 0⟩ 1 (fun _ _ => true) P p} = 1 := by
    intro P hP
    refine Eq.trans ?_ (exSeen P hP)
    rw [← (blSets P).2]
    congr 1
    ext p
    simp only [Set.mem_setOf_eq]
    have : exSetup.enabled = fun _ _ => true := rfl
    rw [this]
    tauto
  refine ⟨g, merged, out, tables, rows, _, h, h1, h2, h3, h4, hok, ?_, ?_, ?_, ?_⟩
  · have := (r3 hcov).trans (hset _ trivial)
    simpa using this
  · have := (r4 hcov).trans (hset _ trivial)
    simpa using this
  · exact ((r6 0 0).2 (blClear _ blInBin)).trans (hset _ hbin0)
  · refine le_trans (r6 0 0).1 ?_
    norm_num

/-- Settings of `calculate_purity`: one bin. -/
noncomputable def exPurity : BTA.Purity.Setup ℝ := ⟨(-5, 15), (-1, 1), (20, 2), some 2, none, none, 0, Real.sqrt⟩

/-- A table of such tracks: the first track has a hit. -/
def exRows : List (BTA.Fit.Row ℝ (Option Vec3)) :=
  [⟨⟨0, 7, fun _ => some 0.25, fun _ => some 0⟩, ⟨some 0.5, some 0, none⟩, ⟨0, 0, 0⟩⟩, ⟨⟨0, 5, fun _ => none, fun _ => none⟩, ⟨some 9.75, some 0, none⟩, ⟨0, 0, 0⟩⟩]

theorem exLocal (r : Nat) : AtLocal ⟨0, 0, 1, 0, 0, 0⟩ ((exTruth 0).at' r 1) (if r = 0 then 0 else 10) 0 := by
  unfold AtLocal
  dsimp only
  rw [BTA.Line.Props.rotation_none]
  ext i
  fin_cases i <;> simp [Truth.at', exTruth]

theorem exTableOf : TableOf exTruth [exClust 0.5, exClust 10] blTables ⟨1, [0, 2], [], false, none⟩ ⟨0, 0, 1, 0, 0, 0⟩ 0.5 0.5 exRows := by
  have hroot : ∀ x b : ℝ, |x| ≤ b → Real.sqrt (x ^ 2 + (0 - 0) ^ 2) ≤ b := by
    intro x b h
    rw [sub_self, zero_pow two_ne_zero, add_zero, Real.sqrt_sq_eq_abs]
    exact h
  refine ⟨[(0, 0), (0, 1)], by decide, ?_, .cons ⟨rfl, ⟨0, 0, 0.5, 0, exLocal 0, rfl, rfl, hroot _ _ (by norm_num [abs_le]), ?_⟩, ?_⟩ (.cons ⟨rfl, ⟨10, 0, 9.75, 0, exLocal 1, rfl, rfl,
    hroot _ _ (by norm_num [abs_le]), fun h hh => by cases hh⟩, ?_⟩ .nil)⟩
  · intro p
    rw [blIsTrack]
    simp only [List.mem_cons, List.not_mem_nil, or_false]
    constructor
    · rintro (rfl | rfl)
      · exact ⟨.inl rfl, (blTaken 0).mpr (exTaken 0 (by decide))⟩
      · exact ⟨.inr rfl, (blTaken 1).mpr (exTaken 1 (by decide))⟩
    · exact fun h => h.1
  · intro h hh
    obtain rfl := Option.some.inj hh
    exact ⟨hroot _ _ (by norm_num [abs_le]), hroot _ _ (by norm_num [abs_le])⟩
  · rw [blHas, exHas]
    simp [storedHit, exTables]
  · rw [blHas, exHas]
    simp [storedHit, exTables]

/-- C209: with a cut of 2 the hits of this table are pure. -/
example : ∃ m, BTA.Purity.dutMaps exPurity (exRows.map (purityRow 1)) 10 = .ok m ∧ m.total (0, 0) = 1 ∧ m.pure (0, 0) = 1 ∧ m.purity (0, 0) = 100 := by
  have hsort : SortedBy (fun r : BTA.Fit.Row ℝ (Option Vec3) => r.cand.event) exRows := by
    unfold SortedBy exRows
    simp
  have h0 : ∀ r ∈ exRows, storedHit 1 r ≠ some (0, 0) := by
    intro r hr h
    simp only [exRows, List.mem_cons, List.not_mem_nil, or_false] at hr
    rcases hr with rfl | rfl
    · have := congrArg Prod.fst (Option.some.inj h)
      norm_num at this
    · cases h
  have hn1 : BTA.Purity.nBins exPurity.extentX exPurity.binSize.1 = 1 := by
    unfold BTA.Purity.nBins exPurity
    norm_num
  have hn2 : BTA.Purity.nBins exPurity.extentY exPurity.binSize.2 = 1 := by
    unfold BTA.Purity.nBins exPurity
    norm_num
  have hex : BTA.Purity.edgesX exPurity = [-5, 15] := by
    unfold BTA.Purity.edgesX
    rw [hn1]
    unfold BTA.Binning.linspace exPurity
    simp [List.range_succ]
  have hey : BTA.Purity.edgesY exPurity = [-1, 1] := by
    unfold BTA.Purity.edgesY
    rw [hn2]
    unfold BTA.Binning.linspace exPurity
    simp [List.range_succ]
  have hbin : InBin [(-5 : ℝ), 15] 0 0.25 ∧ InBin [(-1 : ℝ), 1] 0 0 := ⟨⟨-5, 15, rfl, rfl, by norm_num, .inl (by norm_num)⟩, ⟨-1, 1, rfl, rfl, by norm_num, .inl (by norm_num)⟩⟩
  have hhit : BTA.Purity.Spec.HitIn exPurity 0 0 (purityRow 1 ⟨⟨0, 7, fun _ => some 0.25, fun _ => some 0⟩, ⟨some 0.5, some 0, none⟩, ⟨0, 0, 0⟩⟩) := by
    refine ⟨(0.25, 0), rfl, ?_⟩
    rw [hex, hey]
    exact hbin
  have hno : ¬ BTA.Purity.Spec.HitIn exPurity 0 0 (purityRow 1 ⟨⟨0, 5, fun _ => none, fun _ => none⟩, ⟨some 9.75, some 0, none⟩, ⟨0, 0, 0⟩⟩) := by
    rintro ⟨h, hh, -⟩
    cases hh
  have hpure : BTA.Purity.Spec.PureHit exPurity (purityRow 1 ⟨⟨0, 7, fun _ => some 0.25, fun _ => some 0⟩, ⟨some 0.5, some 0, none⟩, ⟨0, 0, 0⟩⟩) := by
    refine ⟨rfl, fun _ h => (nomatch h), fun _ h => (nomatch h), (0.25, 0), 0.25, 2, rfl, by norm_num, ?_, rfl, by norm_num⟩
    simp only [purityRow, Option.getD_some]
    norm_num
  have hnum : number (exRows.map (purityRow 1)) (BTA.Purity.Spec.HitIn exPurity 0 0) = 1 := by
    classical
    unfold number exRows
    simp only [List.map_cons, List.map_nil, List.filter_cons, List.filter_nil, hhit, hno, decide_true, decide_false, if_true]
    rfl
  have hnump : number (exRows.map (purityRow 1)) (fun r => BTA.Purity.Spec.PureHit exPurity r ∧ BTA.Purity.Spec.HitIn exPurity 0 0 r) = 1 := by
    classical
    unfold number exRows
    simp only [List.map_cons, List.map_nil, List.filter_cons, List.filter_nil, hhit, hno, hpure, and_self, and_false, decide_true, decide_false, if_true]
    rfl
  have hsT : SortedBy BTA.Purity.Row.event (exRows.map (purityRow 1)) := by
    unfold SortedBy at hsort ⊢
    exact List.pairwise_map.mpr hsort
  have hx : exPurity.extentX.1 < exPurity.extentX.2 := by norm_num [exPurity]
  have hy : exPurity.extentY.1 < exPurity.extentY.2 := by norm_num [exPurity]
  have hsq : BTA.Purity.Spec.ExactRoot exPurity.sqrt (exRows.map (purityRow 1)) := by
    intro r _ q _
    exact ⟨Real.sqrt_nonneg _, Real.sq_sqrt (by positivity)⟩
  have h0' : ∀ r ∈ exRows.map (purityRow 1), r.hit ≠ some (0, 0) := by
    intro r hr
    obtain ⟨r', hr', rfl⟩ := List.mem_map.mp hr
    exact h0 r' hr'
  obtain ⟨m, hm⟩ := BTA.Purity.Props.C53_plotted exPurity (exRows.map (purityRow 1)) hsT 10 (by decide) (by
    intro e
    exact lt_of_le_of_lt (List.length_filter_le _ _) (by decide)) hx hy hsq (fun h => (nomatch h)) h0' 0 0 (by rw [hnum]; norm_num [exPurity]) (by rw [hnum]; decide) (by rw [hnum, hnump]; decide)
  have hmap := (BTA.Purity.Props.C53_map_partial exPurity _ hsT 10 (by decide) hx hy hsq (fun h => (nomatch h)) h0' m hm 0 0).1
  rw [hnum] at hmap
  obtain ⟨h1, h2, -⟩ := C209_purity exTruth [exClust 0.5, exClust 10] blTables ⟨1, [0, 2], [], false, none⟩ ⟨0, 0, 1, 0, 0, 0⟩ 0.5 0.5 exRows hsort exTableOf exPurity hx hy rfl 2 rfl
    (by norm_num) rfl rfl h0 10 (by decide) m hm 0 0
  refine ⟨m, hm, hmap, h1.trans hmap, ?_⟩
  rw [h2, hmap]
  rfl

end BTA.Chain.Props
