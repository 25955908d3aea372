import Verif.Model.AlignChain
import Verif.Spec.AlignChain
import Verif.Props.ChainAccuracy
import Verif.Props.Transformation
/-
C203: the alignment of a DUT from clusters.
-/
namespace BTA.Chain.Props
open BTA.Chain BTA.MergedColumns BTA.Line BTA.Dut BTA.Geo BTA.Spec BTA.Merge BTA.FindFile
open BTA.Fit (Sampling DutCfg)
open BTA.Transformation (DutConf Numpy dutTransformation)
open BTA.Transformation.Spec (position rotated Uses HitOnTrack UnitVector AllOnTrack OnSensor Rigid Principal SvdCorrect PinvCorrect allParameters cross Within)

theorem storedSlope_unit (a : Alignment) (v s : Vec3) (h : Angle.storedSlope a v = some s) : UnitVector s := by
  unfold Angle.storedSlope Angle.normalize at h
  split at h
  · cases h
  · rename_i hne
    obtain rfl := Option.some.inj h
    set u := Angle.forward (applyTransformation (globalToLocalMatrix 0 0 0 a.alpha a.beta a.gamma) v) with hu
    have h0 : 0 ≤ Geo.dot u u := by
      unfold Geo.dot
      nlinarith [sq_nonneg (u 0), sq_nonneg (u 1), sq_nonneg (u 2)]
    have h1 := Real.mul_self_sqrt h0
    unfold UnitVector
    simp only [Pi.smul_apply, smul_eq_mul]
    have : Geo.dot u u = u 0 ^ 2 + u 1 ^ 2 + u 2 ^ 2 := by unfold Geo.dot; ring
    rw [mul_pow, mul_pow, mul_pow, ← mul_add, ← mul_add, ← this, inv_pow, Real.sq_sqrt h0]
    refine inv_mul_cancel₀ fun h2 => hne ?_
    rw [h2, Real.sqrt_zero]

/-- The stored track of a candidate with exact hits in the fit DUTs. -/
theorem exact_row (g : Config) (hsl : g.slices ≠ 0) (hsvd : Svd g) (hcv : Converges g) (F : Finset Nat) (row : Row (Value ℝ))
    (hz : ∀ d < g.duts.length, ∀ h, candOf row d = some h → h.z = 0) (p v : Vec3) (l : Nat → ℝ) (hon : HitsOn (lineConfig g F) (candOf row) p v)
    (hin : ∀ d a, g.duts[d]? = some a → InPlane a (p + l d • v) ∧ ¬ ∃ u w : ℝ, v = (rotationMatrix a.alpha a.beta a.gamma).mulVec ![u, w, 0]) (d : Nat) (a : Alignment)
    (ha : g.duts[d]? = some a) :
    ∃ x y s, lineEst g F (fitCand row) d = ⟨some x, some y, some s⟩ ∧ AtLocal a (p + l d • v) x y ∧ UnitVector s ∧ ∃ k : ℝ, k ≠ 0 ∧ globalDirection a s = k • v := by
  have hfd : ∀ d ∈ (lineConfig g F).fitDuts, d < g.duts.length := fun d hd' => List.mem_range.mp (List.mem_filter.mp hd').1
  obtain ⟨ts, hts, hlen, hall⟩ := fit_truth (lineConfig g F) hsl hsvd hcv hfd [candOf row] (fun _ => p) (fun _ => v) (fun _ => l) (by
    intro i c hc
    cases i with
    | succ i => cases hc
    | zero =>
      obtain rfl := Option.some.inj hc
      exact ⟨hon, fun d x hx hdl => hz d hdl x hx, hin⟩)
  obtain ⟨t, rfl⟩ := List.length_eq_one_iff.mp hlen
  obtain ⟨e, he, hloc⟩ := (hall 0 t rfl).1 d a ha
  obtain ⟨u, hu, hu1, q, -, -, -, hslope⟩ := BTA.Line.Props.stored_line (lineConfig g F) hsl hsvd _ _ hts 0 _ t rfl rfl d a e ha he
  obtain ⟨s, hs⟩ := storedSlope_some a (AlignTel.orient u) (by
    intro h0
    rcases BTA.Line.Props.orient_unit_smul u hu1 with h | h
    · rw [h] at h0
      rw [h0] at hu1
      simp [Geo.dot] at hu1
    · rw [h] at h0
      rw [neg_eq_zero.mp h0] at hu1
      simp [Geo.dot] at hu1)
  have hk := (BTA.Line.Props.C144_line (lineConfig g F) hsl hsvd _ _ hts 0 _ t rfl rfl p v hon d a e ha he).2.1 s (hslope.trans hs)
  refine ⟨e.pos 0, e.pos 1, s, ?_, hloc, storedSlope_unit a _ s hs, hk⟩
  rw [lineEst_fit g hsl F row hz [t] t hts rfl d e he, hslope, hs]

/-- C203: the complete chain `merge_cluster_data`, `find_tracks`, `fit_tracks` (straight line fit) and `calculate_transformation`. One DUT is not where the configuration says, all others are; it is
not used for fitting the tracks. The stored tracks are the true tracks: in any selection of the rows the hits of the DUT are exactly on the tracks, if the DUT is at its true position. If the
true tracks determine the position of the DUT, `calculate_transformation` ends without exception, changes no angle, and puts the DUT to its true position. -/
theorem C203_alignment (duts : List (Bool × Pixels ℝ)) (g : Config) (beam : Option Alignment) (hb : SamePlanes beam g.duts) (hflat : Flat g.duts) (hn : g.duts.length = duts.length)
    (h10 : duts.length ≤ 10) (zs extrap : List Nat) (hz : zs.Perm (List.range g.duts.length)) (f : Nat) (ds : List Nat) (hf : zs = f :: ds) (err lev move : ℝ) (hlever : Lever g.duts zs lev)
    (S : Sampling) (cs : Nat) (hcs : 0 < cs) (T0 : List (Clust ℝ)) (others : List (List (Clust ℝ)))
    (hd : duts.length = others.length + 1) (hs0 : SortedBy Clust.ev T0) (hs : ∀ T ∈ others, SortedBy Clust.ev T)
    (hm : ∀ T ∈ T0 :: others, ∀ e, BTA.Spec.multiplicity Clust.ev T e < cs) (hsl : g.slices ≠ 0) (hsvd : Svd g) (hcv : Converges g)
    (k : Nat) (pos : Vec3) (s : Int → Nat → ℝ) (truth : Int → Truth)
    (hI : ∀ e, (∃ x ∈ T0, e ≤ x.ev) → Shifted beam duts g.duts (eventOf (T0 :: others) e) f err lev move k pos (s e) (truth e))
    (planes : List (BTA.Fit.Plane ℝ)) (hcut : ∀ P ∈ planes, ValidCuts P) (S' : Sampling) (cs1 : Nat) (hcs1 : cs ≤ cs1) (cfgs : List DutCfg) (hnd : (cfgs.map DutCfg.dut).Nodup)
    (hfit : ∀ c ∈ cfgs, c.fitDuts.Nodup) (hreq : ∀ c ∈ cfgs, 2 ≤ required c ∧ required c ≤ (ownFit c).card) :
    ∃ merged out tables, mergeClusterData Clust.ev T0 others cs = .ok merged ∧
      findFile (telescopeSetting beam g.duts zs extrap) S 0 cs (merged.map (mergedRow duts)) = some (out, none) ∧
      BTA.Fit.fitTracks (lineEst g) planes false false S' 0 cs1 (out.map fitCand) cfgs = .ok tables ∧
      ∀ c ∈ cfgs, c.dut = k → k ∉ ownFit c → ∀ a, g.duts[k]? = some a → ∃ rows, (k, rows) ∈ tables ∧ ∀ d : DutConf, d.alignment = a →
        (∀ sel : List (BTA.Fit.Row ℝ (Option Vec3)), (∀ r ∈ sel, r ∈ rows) → ∀ useLimits, AllOnTrack d useLimits pos (sel.map (alignRow k)) ∧ OnSensor (sel.map (alignRow k))) ∧
        (Principal a → (∀ j, |position a j - pos j| ≤ 10 ^ 6) → Set.ncard {p | IsTrack truth T0 p} ≤ 1000000 →
          let point := fun p : Int × Nat => (truth p.1).p p.2 + s p.1 p.2 • (truth p.1).v p.2
          Determined {p | IsTrack truth T0 p ∧ Taken truth (T0 :: others) c p ∧ HasCluster truth (T0 :: others) k p ∧ InLimits d (movedTo a pos) (point p)} point
            (fun p => (truth p.1).v p.2) pos →
          ∀ np, SvdCorrect np → PinvCorrect np → ∀ fuel ≥ 3, ∃ new, dutTransformation np {} fuel allParameters d (rows.map (alignRow k)) = .ok new ∧
            new.alpha = a.alpha ∧ new.beta = a.beta ∧ new.gamma = a.gamma ∧ ∀ j : Fin 3, |position new j - pos j| ≤ 2.4e-4) := by
  obtain ⟨merged, out, h1, h2, hlast, hev0⟩ := C190_candidates duts g.duts beam hb hflat hn h10 zs extrap hz f ds hf err lev move hlever S cs hcs T0 others hd hs0 hs hm
  have hev := fun e he => hev0 e (truth e) he (hI e he).toBlurred
  obtain ⟨hsort, hmult, hflag3⟩ := out_facts duts g.duts beam hn h10 zs extrap hz S cs hcs T0 others hd hs0 hs hm merged out h1 h2
  have hT : SortedBy BTA.Fit.Cand.event (out.map fitCand) := by
    unfold SortedBy at hsort ⊢
    exact List.pairwise_map.mpr hsort
  have hflag : ∀ t ∈ out.map fitCand, t.flag < 2 ^ 32 := by
    intro t ht
    obtain ⟨row, -, rfl⟩ := List.mem_map.mp ht
    exact row.flag.isLt
  have hmul : ∀ e, BTA.Spec.multiplicity BTA.Fit.Cand.event (out.map fitCand) e < cs1 := by
    intro e
    refine lt_of_lt_of_le ?_ hcs1
    have : BTA.Spec.multiplicity BTA.Fit.Cand.event (out.map fitCand) e = BTA.Spec.multiplicity Row.ev out e := by
      unfold BTA.Spec.multiplicity
      rw [List.filter_map, List.length_map]
      rfl
    rw [this]
    exact hmult e
  obtain ⟨tables, h3, h4⟩ := BTA.Fit.Props.C24_tracks_table (lineEst g) planes hcut false S' cs1 (out.map fitCand) hT hflag hmul cfgs hnd hfit hreq
  have hbit : ∀ (row : Row (Value ℝ)) (p : Int × Nat), row ∈ out → row.ev = p.1 → (out.filter fun x => decide (x.ev = p.1))[p.2]? = some row → ∀ d,
      (row.flag.toNat.testBit d = true ↔ HasCluster truth (T0 :: others) d p) := by
    rintro row ⟨e, r⟩ hrow he hr d
    dsimp only at he hr
    subst he
    have hlast' := hlast row hrow
    have hout : ¬ d < duts.length → eventOf (T0 :: others) row.ev d = [] := by
      intro h
      unfold eventOf
      rw [List.getD_eq_getElem?_getD, List.getElem?_eq_none (by simp only [List.length_cons]; omega)]
      rfl
    by_cases hd32 : d < 32
    · rw [← BitVec.getLsbD, hflag3 row hrow d hd32]
      unfold HasCluster
      by_cases hdl : d < duts.length
      · rw [(hev row.ev hlast').2 r row hr d _ (List.getElem?_eq_getElem hdl), Option.isSome_map]
        simp [hdl]
      · rw [hout hdl]
        simp [hdl]
    · have e1 : row.flag.toNat.testBit d = false := by
        rw [← BitVec.getLsbD]
        exact BitVec.getLsbD_of_ge _ _ (by omega)
      rw [e1]
      unfold HasCluster
      rw [hout (by omega)]
      simp
  have hz0 : ∀ (row : Row (Value ℝ)) (p : Int × Nat), row ∈ out → row.ev = p.1 → (out.filter fun x => decide (x.ev = p.1))[p.2]? = some row →
      ∀ d < g.duts.length, ∀ h, candOf row d = some h → h.z = 0 := by
    rintro row ⟨e, r⟩ hrow he hr d hd' h hh
    dsimp only at he hr
    subst he
    rw [(hev row.ev (hlast row hrow)).2 r row hr d _ (List.getElem?_eq_getElem (show d < duts.length by omega)), Option.map_eq_some_iff] at hh
    obtain ⟨cl, -, rfl⟩ := hh
    exact clusterHit_z _ cl
  refine ⟨merged, out, tables, h1, h2, h3, ?_⟩
  rintro c hc rfl hk a ha
  obtain ⟨rows, hrows, -⟩ := h4 c hc
  refine ⟨rows, hrows, ?_⟩
  rintro d rfl
  have hdl : c.dut < duts.length := by
    rw [← hn]
    exact (List.getElem?_eq_some_iff.mp ha).1
  have h57 := BTA.Fit.Props.C57_flags (lineEst g) planes hcut false S' cs1 (by omega) (out.map fitCand) hT hflag cfgs hfit tables h3 c hc rows hrows
  have hrel : List.Forall₂ (fun (row : Row (Value ℝ)) (r : BTA.Fit.Row ℝ (Option Vec3)) => r.cand = fitCand row ∧ r.est = lineEst g (ownFit c) (fitCand row) c.dut)
      (out.filter fun row => decide (Stored false c row.flag.toNat)) rows := by
    have e1 : (out.filter fun row => decide (Stored false c row.flag.toNat)) = (out.zipIdx.filter fun p => decide (Stored false c p.1.flag.toNat)).map Prod.fst := by
      conv_lhs => rw [← List.zipIdx_map_fst 0 out]
      rw [List.filter_map]
      rfl
    have e2 : ((out.map fitCand).zipIdx.filter fun p => decide (Stored false c p.1.flag)) =
        (out.zipIdx.filter fun p => decide (Stored false c p.1.flag.toNat)).map (Prod.map fitCand id) := by
      rw [List.zipIdx_map, List.filter_map]
      rfl
    rw [e2, List.forall₂_map_left_iff] at h57
    rw [e1, List.forall₂_map_left_iff]
    exact h57.imp fun p r h => ⟨h.1, h.2.1⟩
  -- a row of the table and its track
  have hhit : ∀ (row : Row (Value ℝ)) (r : BTA.Fit.Row ℝ (Option Vec3)), r.cand = fitCand row → (alignRow c.dut r).hit = (candOf row c.dut).map fun x => ![x.x, x.y, 0] := by
    intro row r h
    unfold alignRow candOf
    dsimp only
    rw [h]
    unfold fitCand
    dsimp only
    cases hitOf c.dut row.cols <;> rfl
  have hpoint : ∀ (row : Row (Value ℝ)) (p : Int × Nat) (r : BTA.Fit.Row ℝ (Option Vec3)), row ∈ out → row.ev = p.1 → (out.filter fun x => decide (x.ev = p.1))[p.2]? = some row →
      Stored false c row.flag.toNat → r.cand = fitCand row → r.est = lineEst g (ownFit c) (fitCand row) c.dut →
      IsTrack truth T0 p ∧ (alignRow c.dut r).fitted = true ∧ UnitVector (alignRow c.dut r).slope ∧ (alignRow c.dut r).offset 2 = 0 ∧
      rotated d.alignment (alignRow c.dut r).offset + position d.alignment = (truth p.1).at' p.2 c.dut ∧
      (∃ k : ℝ, k ≠ 0 ∧ rotated d.alignment (alignRow c.dut r).slope = k • (truth p.1).v p.2) ∧
      ∀ h, (alignRow c.dut r).hit = some h → HasCluster truth (T0 :: others) c.dut p ∧ h 2 = 0 ∧
        AtLocal (movedTo d.alignment pos) ((truth p.1).p p.2 + s p.1 p.2 • (truth p.1).v p.2) (h 0) (h 1) ∧
        rotated d.alignment h + pos = (truth p.1).p p.2 + s p.1 p.2 • (truth p.1).v p.2 := by
    rintro row ⟨e, n⟩ r hrow he hr hst hcand hest
    dsimp only at he hr ⊢
    subst he
    have hlast' := hlast row hrow
    have hS := hI row.ev hlast'
    obtain ⟨hcount, hcl⟩ := hev row.ev hlast'
    have hrm : n < (truth row.ev).m := by
      rw [← hcount]
      exact (List.getElem?_eq_some_iff.mp hr).1
    have htwo : 2 ≤ hitsIn row.flag.toNat (ownFit c) := le_trans (hreq c hc).1 hst.2.1
    have hplaced : ∀ d a h, d ≠ c.dut → g.duts[d]? = some a → candOf row d = some h → placed a h = (truth row.ev).at' n d := by
      intro d a h hdk ha hh
      have hd' := (List.getElem?_eq_some_iff.mp ha).1
      have hdut := List.getElem?_eq_getElem (l := duts) (i := d) (by omega)
      rw [hcl n row hr d _ hdut, Option.map_eq_some_iff] at hh
      obtain ⟨cl, hcl', rfl⟩ := hh
      exact placed_clusterHit a _ cl _ (hS.exact d a _ hdk ha hdut n hrm cl hcl')
    have hon : HitsOn (lineConfig g (ownFit c)) (candOf row) ((truth row.ev).p n) ((truth row.ev).v n) := by
      constructor
      · intro d hd' a h hh
        have hdF : d ∈ ownFit c := by
          have := (List.mem_filter.mp hd').2
          exact of_decide_eq_true this
        exact ⟨(truth row.ev).l n d, hplaced d a h (fun hh' => hk (hh' ▸ hdF)) hh.1 hh.2⟩
      · unfold hitsIn at htwo
        obtain ⟨d1, hd1, d2, hd2, hne⟩ := Finset.one_lt_card.mp (lt_of_lt_of_le one_lt_two htwo)
        rw [Finset.mem_filter] at hd1 hd2
        have hcandlt : ∀ d, row.flag.toNat.testBit d = true → d < g.duts.length ∧ (candOf row d).isSome = true := by
          intro d hbit'
          have hd32 : d < 32 := by
            by_contra h
            rw [← BitVec.getLsbD, BitVec.getLsbD_of_ge _ _ (by omega)] at hbit'
            cases hbit'
          rw [← BitVec.getLsbD] at hbit'
          have := (hflag3 row hrow d hd32).mp hbit'
          exact ⟨by omega, this.2⟩
        obtain ⟨a1, a2⟩ := hcandlt d1 hd1.2
        obtain ⟨b1, b2⟩ := hcandlt d2 hd2.2
        obtain ⟨x1, hx1⟩ := Option.isSome_iff_exists.mp a2
        obtain ⟨x2, hx2⟩ := Option.isSome_iff_exists.mp b2
        have g1 := List.getElem?_eq_getElem a1
        have g2 := List.getElem?_eq_getElem b1
        refine ⟨d1, List.mem_filter.mpr ⟨List.mem_range.mpr a1, decide_eq_true hd1.1⟩, d2, List.mem_filter.mpr ⟨List.mem_range.mpr b1, decide_eq_true hd2.1⟩, _, x1, _, x2, ⟨g1, hx1⟩, ⟨g2, hx2⟩, ?_⟩
        rw [hplaced d1 _ x1 (fun hh' => hk (hh' ▸ hd1.1)) g1 hx1, hplaced d2 _ x2 (fun hh' => hk (hh' ▸ hd2.1)) g2 hx2]
        intro heq
        unfold Truth.at' at heq
        have h0 : ((truth row.ev).l n d1 - (truth row.ev).l n d2) • (truth row.ev).v n = 0 := by
          rw [sub_smul, sub_eq_zero]
          exact add_left_cancel heq
        rcases smul_eq_zero.mp h0 with h0 | h0
        · exact hS.different d1 a1 d2 b1 hne n hrm (sub_eq_zero.mp h0)
        · apply hS.through d1 _ g1 n hrm
          refine ⟨0, 0, ?_⟩
          rw [h0]
          have : (![0, 0, 0] : Vec3) = 0 := by ext i; fin_cases i <;> rfl
          rw [this, Matrix.mulVec_zero]
    obtain ⟨x, y, sl, hle, hloc, hun, hdir⟩ := exact_row g hsl hsvd hcv (ownFit c) row (hz0 row (row.ev, n) hrow rfl hr) ((truth row.ev).p n) ((truth row.ev).v n) ((truth row.ev).l n) hon
      (fun d a ha => ⟨hS.crosses d a ha n hrm, hS.through d a ha n hrm⟩) c.dut d.alignment ha
    rw [hle] at hest
    have hoff : (alignRow c.dut r).offset = ![x, y, 0] := by
      unfold alignRow
      rw [hest]
      rfl
    have hslope : (alignRow c.dut r).slope = sl := by
      unfold alignRow
      rw [hest]
      rfl
    refine ⟨⟨hlast', hrm⟩, by unfold alignRow; rw [hest]; rfl, by rw [hslope]; exact hun, by rw [hoff]; rfl, ?_, ?_, ?_⟩
    · rw [hoff]
      exact hloc.symm
    · rw [hslope]
      exact hdir
    · intro h hh
      rw [hhit row r hcand, Option.map_eq_some_iff] at hh
      obtain ⟨x, hx, rfl⟩ := hh
      have hdut := List.getElem?_eq_getElem hdl
      rw [hcl n row hr c.dut _ hdut, Option.map_eq_some_iff] at hx
      obtain ⟨cl, hcl', rfl⟩ := hx
      have hmv := hS.moved d.alignment _ ha hdut n hrm cl hcl'
      refine ⟨(List.getElem?_eq_some_iff.mp hcl').1, rfl, hmv, ?_⟩
      unfold AtLocal movedTo at hmv
      rw [hmv]
      unfold rotated
      dsimp only
      congr 1
      ext i
      fin_cases i <;> rfl
  have hall : ∀ r ∈ rows, ∃ (row : Row (Value ℝ)) (p : Int × Nat), row ∈ out ∧ row.ev = p.1 ∧ (out.filter fun x => decide (x.ev = p.1))[p.2]? = some row ∧
      Stored false c row.flag.toNat ∧ r.cand = fitCand row ∧ r.est = lineEst g (ownFit c) (fitCand row) c.dut := by
    intro r hr
    obtain ⟨i, hi⟩ := List.getElem?_of_mem hr
    obtain ⟨row, hrow, h⟩ : ∃ row ∈ (out.filter fun row => decide (Stored false c row.flag.toNat)), r.cand = fitCand row ∧ r.est = lineEst g (ownFit c) (fitCand row) c.dut := by
      have hlen := hrel.length_eq
      have hil := (List.getElem?_eq_some_iff.mp hi).1
      have := (List.forall₂_iff_get.mp hrel).2 i (by omega) hil
      refine ⟨_, List.get_mem _ ⟨i, by omega⟩, ?_⟩
      rw [← (List.getElem?_eq_some_iff.mp hi).2]
      exact this
    obtain ⟨hmem', hst⟩ := List.mem_filter.mp hrow
    obtain ⟨n, hn'⟩ := List.getElem?_of_mem (show row ∈ out.filter fun x => decide (x.ev = row.ev) from List.mem_filter.mpr ⟨hmem', by simp⟩)
    exact ⟨row, (row.ev, n), hmem', rfl, hn', of_decide_eq_true hst, h.1, h.2⟩
  have hsel : ∀ sel : List (BTA.Fit.Row ℝ (Option Vec3)), (∀ r ∈ sel, r ∈ rows) → ∀ useLimits,
      AllOnTrack d useLimits pos (sel.map (alignRow c.dut)) ∧ OnSensor (sel.map (alignRow c.dut)) := by
    intro sel hsel ul
    constructor
    · intro r hr h hu
      obtain ⟨r', hr', rfl⟩ := List.mem_map.mp hr
      obtain ⟨row, p, k1, k2, k3, k4, k5, k6⟩ := hall r' (hsel r' hr')
      obtain ⟨-, -, hun, -, hat, ⟨k', hk', hdir⟩, hh⟩ := hpoint row p r' k1 k2 k3 k4 k5 k6
      refine ⟨hun, ?_⟩
      unfold HitOnTrack
      rw [hat, hdir, (hh h hu.2.1).2.2.2]
      refine ⟨(s p.1 p.2 - (truth p.1).l p.2 c.dut) / k', ?_⟩
      unfold Truth.at'
      rw [smul_smul, div_mul_cancel₀ _ hk', sub_smul]
      abel
    · intro r hr h hh
      obtain ⟨r', hr', rfl⟩ := List.mem_map.mp hr
      obtain ⟨row, p, k1, k2, k3, k4, k5, k6⟩ := hall r' (hsel r' hr')
      obtain ⟨-, -, -, h0, -, -, hh'⟩ := hpoint row p r' k1 k2 k3 k4 k5 k6
      rw [h0, (hh' h hh).2.1]
      simp
  refine ⟨hsel, ?_⟩
  intro hprin hshift hcard point hdet np hsv hpv fuel hfuel
  obtain ⟨L, hL1, hL2, hL3⟩ := exists_ranks Row.ev out
  have hLtrack : ∀ p, p ∈ L ↔ IsTrack truth T0 p := by
    intro p
    rw [hL2]
    unfold IsTrack
    by_cases he : ∃ x ∈ T0, p.1 ≤ x.ev
    · rw [(hev p.1 he).1]
      exact ⟨fun h => ⟨he, h⟩, fun h => h.2⟩
    · have : (out.filter fun x => decide (x.ev = p.1)) = [] := by
        rw [List.filter_eq_nil_iff]
        intro row hrow
        rw [decide_eq_true_eq]
        intro h
        exact he (h ▸ hlast row hrow)
      rw [this]
      simp [he]
  have hlen : rows.length ≤ 1000000 := by
    have e1 : rows.length ≤ out.length := by
      rw [← hrel.length_eq]
      exact List.length_filter_le _ _
    have e2 : out.length = L.length := hL3.length_eq
    have e3 : L.length = Set.ncard {p | IsTrack truth T0 p} := by
      have e4 : {p | IsTrack truth T0 p} = ((L.toFinset : Finset (Int × Nat)) : Set (Int × Nat)) := by
        ext p
        simp [hLtrack p]
      rw [e4, Set.ncard_coe_finset, List.toFinset_card_of_nodup hL1]
    omega
  refine BTA.Transformation.Props.C78_default np hsv hpv fuel hfuel d hprin _ (by simpa using hlen) (hsel rows (fun _ h => h) true).2 pos hshift (hsel rows (fun _ h => h) true).1 ?_
  intro w v hw
  refine hdet w v ?_
  rintro p ⟨htr, htk, hhc, hlim⟩
  obtain ⟨row, hrow⟩ : ∃ row, (out.filter fun x => decide (x.ev = p.1))[p.2]? = some row := by
    refine ⟨_, List.getElem?_eq_getElem ?_⟩
    rw [(hev p.1 htr.1).1]
    exact htr.2
  have hmem := List.mem_filter.mp (List.mem_of_getElem? hrow)
  have hrev : row.ev = p.1 := of_decide_eq_true hmem.2
  have hb' := hbit row p hmem.1 hrev hrow
  have hst : Stored false c row.flag.toNat := by
    classical
    unfold Taken at htk
    unfold Stored hitsIn
    have : ((ownFit c).filter fun d => row.flag.toNat.testBit d = true) = (ownFit c).filter fun d => HasCluster truth (T0 :: others) d p :=
      Finset.filter_congr fun d _ => hb' d
    rw [this]
    simp only [hb']
    simpa using htk
  obtain ⟨r, hr, k5, k6⟩ : ∃ r ∈ rows, r.cand = fitCand row ∧ r.est = lineEst g (ownFit c) (fitCand row) c.dut := by
    obtain ⟨i, hi⟩ := List.getElem?_of_mem (show row ∈ out.filter fun row => decide (Stored false c row.flag.toNat) from List.mem_filter.mpr ⟨hmem.1, decide_eq_true hst⟩)
    have hlen := hrel.length_eq
    have hil := (List.getElem?_eq_some_iff.mp hi).1
    have := (List.forall₂_iff_get.mp hrel).2 i hil (by omega)
    refine ⟨_, List.get_mem _ ⟨i, by omega⟩, ?_⟩
    rw [← (List.getElem?_eq_some_iff.mp hi).2]
    exact this
  obtain ⟨-, hft, -, -, -, ⟨k', hk', hdir⟩, hh⟩ := hpoint row p r hmem.1 hrev hrow hst k5 k6
  obtain ⟨h, hhs⟩ : ∃ h, (alignRow c.dut r).hit = some h := by
    rw [hhit row r k5, (hev p.1 htr.1).2 p.2 row hrow c.dut _ (List.getElem?_eq_getElem hdl), List.getElem?_eq_getElem hhc]
    exact ⟨_, rfl⟩
  obtain ⟨-, -, hmv, hgl⟩ := hh h hhs
  obtain ⟨t, ht⟩ := hw _ (List.mem_map_of_mem hr) h ⟨hft, hhs, fun _ => hlim _ _ hmv⟩
  refine ⟨t * k', ?_⟩
  have e1 : rotated d.alignment h = point p - pos := by
    rw [eq_sub_iff_add_eq]
    exact hgl
  rw [← e1, ht, hdir, smul_smul]

/-! ### Example: five events with one track each. DUT 1 is at (0, 0, 1) in the configuration, and at (0.5, 0, 1.25) in truth. -/

/-- Where the track of event `e` crosses DUT 1, in local coordinates, and the slope of the track. -/
noncomputable def shX (e : Int) : ℝ := if e = 0 ∨ e = 3 then 1 else 0
noncomputable def shY (e : Int) : ℝ := if e = 1 ∨ e = 4 then 1 else 0
noncomputable def shB (e : Int) : ℝ := if e < 2 then 0 else 3 / 4

noncomputable def shPos : Vec3 := ![1 / 2, 0, 5 / 4]

noncomputable def shClust (d : Nat) (e : Int) : Clust ℝ :=
  { exClust (if d = 1 then shX e else 1 / 2 + shX e + ((d : ℝ) - 5 / 4) * shB e) with ev := e, meanY := shY e }

noncomputable def shTable (d : Nat) : List (Clust ℝ) := [0, 1, 2, 3, 4].map (shClust d)

noncomputable def shTruth (e : Int) : Truth where
  m := if 0 ≤ e ∧ e ≤ 4 then 1 else 0
  p _ := ![1 / 2 + shX e, shY e, 5 / 4]
  v _ := ![shB e, 0, 1]
  l _ d := (d : ℝ) - 5 / 4
  own r _ := r

theorem shEvent (e : Int) (d : Nat) (hd : d < 3) : eventOf [shTable 0, shTable 1, shTable 2] e d = if 0 ≤ e ∧ e ≤ 4 then [shClust d e] else [] := by
  have e1 : eventOf [shTable 0, shTable 1, shTable 2] e d = (([0, 1, 2, 3, 4] : List Int).filter fun i => decide (i = e)).map (shClust d) := by
    unfold eventOf
    have : [shTable 0, shTable 1, shTable 2].getD d [] = shTable d := by
      rcases d with _ | _ | _ | d <;> first | rfl | omega
    rw [this]
    unfold shTable
    rw [List.filter_map]
    rfl
  rw [e1]
  by_cases he : 0 ≤ e ∧ e ≤ 4
  · rw [if_pos he]
    have : e = 0 ∨ e = 1 ∨ e = 2 ∨ e = 3 ∨ e = 4 := by omega
    rcases this with rfl | rfl | rfl | rfl | rfl <;> rfl
  · rw [if_neg he, List.map_eq_nil_iff, List.filter_eq_nil_iff]
    intro i hi
    simp only [List.mem_cons, List.not_mem_nil, or_false] at hi
    simp only [decide_eq_true_eq]
    omega

theorem shShifted (e : Int) : Shifted exBeam exDuts exAls (eventOf [shTable 0, shTable 1, shTable 2] e) 0 (1 / 2) 1 2 1 shPos (fun _ => 0) (shTruth e) := by
  have hrot : ∀ u w : ℝ, (rotationMatrix 0 0 0).mulVec ![u, w, 0] = ![u, w, 0] := fun u w => BTA.Line.Props.rotation_none u w 0
  have hals : ∀ (d : Nat) (a : Alignment), exAls[d]? = some a → d < 3 ∧ a = ⟨0, 0, d, 0, 0, 0⟩ := by
    intro d a h
    rcases d with _ | _ | _ | d <;> simp [exAls] at h <;> subst h <;> refine ⟨by omega, ?_⟩ <;> norm_num
  have hm : ∀ r, r < (shTruth e).m → r = 0 ∧ 0 ≤ e ∧ e ≤ 4 := by
    intro r hr
    by_cases he : 0 ≤ e ∧ e ≤ 4
    · simp [shTruth, he] at hr
      exact ⟨hr, he⟩
    · simp [shTruth, he] at hr
  have hat : ∀ r d : Nat, (shTruth e).at' r d = ![1 / 2 + shX e + ((d : ℝ) - 5 / 4) * shB e, shY e, (d : ℝ)] := by
    intro r d
    ext i
    fin_cases i <;> simp [Truth.at', shTruth]
  have hloc : ∀ (u w z : ℝ), AtLocal ⟨0, 0, z, 0, 0, 0⟩ ![u, w, z] u w := by
    intro u w d
    unfold AtLocal
    rw [hrot]
    ext i
    fin_cases i <;> simp
  have hB : shB e = 0 ∨ shB e = 3 / 4 := by unfold shB; split <;> simp
  have hside : ∀ u u' w z z' : ℝ, sideways (beamPos exBeam ![u, w, z]) (beamPos exBeam ![u', w, z']) = |u - u'| := by
    intro u u' w z z'
    rw [exBeam_eq, exBeam_eq]
    unfold sideways
    rw [← Real.sqrt_sq_eq_abs]
    congr 1
    simp
  have hcl : ∀ d < 3, ∀ dut, exDuts[d]? = some dut → ∀ r < (shTruth e).m, ∀ c, (eventOf [shTable 0, shTable 1, shTable 2] e d)[(shTruth e).own r d]? = some c →
      (clusterHit dut c).x = (if d = 1 then shX e else 1 / 2 + shX e + ((d : ℝ) - 5 / 4) * shB e) ∧ (clusterHit dut c).y = shY e := by
    intro d hd dut hdut r hr c hc
    obtain ⟨rfl, he⟩ := hm r hr
    rw [shEvent e d hd, if_pos he] at hc
    obtain rfl := Option.some.inj hc
    have hb : dut.1 = true := by
      rcases d with _ | _ | _ | d <;> simp [exDuts] at hdut <;> first | (subst hdut; rfl) | omega
    unfold clusterHit
    rw [if_pos hb]
    exact ⟨rfl, rfl⟩
  have hlen : ∀ d < 3, (eventOf [shTable 0, shTable 1, shTable 2] e d).length = (shTruth e).m := by
    intro d hd
    rw [shEvent e d hd]
    by_cases he : 0 ≤ e ∧ e ≤ 4 <;> simp [shTruth, he]
  refine ⟨⟨⟨hlen 0 (by decide), fun _ _ => rfl⟩, fun d hd => (hlen d hd).le, fun d hd r hr => hr, fun d hd r _ s _ h => h, ?_, ?_, ?_, ?_⟩, ?_, ?_, ?_, ?_⟩
  · intro d a ha r hr
    obtain ⟨-, rfl⟩ := hals d a ha
    rw [hat]
    exact ⟨_, _, hloc _ _ d⟩
  · intro d a dut ha hdut r hr c hc
    obtain ⟨hd, rfl⟩ := hals d a ha
    obtain ⟨e1, e2⟩ := hcl d hd dut hdut r hr c hc
    rw [e1, e2]
    refine ⟨_, hloc _ _ _, ?_⟩
    rw [hat, hside]
    by_cases h1 : d = 1
    · subst h1
      rcases hB with h | h <;> rw [h, if_pos rfl] <;> rw [abs_le] <;> constructor <;> norm_num <;> linarith
    · rw [if_neg h1, sub_self, abs_zero]
      norm_num
  · intro d hd r hr
    rw [hat, hat, hside]
    have hd' : d = 0 ∨ d = 1 ∨ d = 2 := by simp [exAls] at hd; omega
    rcases hd' with rfl | rfl | rfl <;> rcases hB with h | h <;> rw [h, abs_le] <;> constructor <;> norm_num <;> linarith
  · intro d hd hne r hr s hs hrs
    exact absurd ((hm r hr).1.trans (hm s hs).1.symm) hrs
  · intro d a dut hne ha hdut r hr c hc
    obtain ⟨hd, rfl⟩ := hals d a ha
    obtain ⟨e1, e2⟩ := hcl d hd dut hdut r hr c hc
    rw [e1, e2, hat, if_neg hne]
    exact hloc _ _ _
  · intro a dut ha hdut r hr c hc
    obtain ⟨hd, rfl⟩ := hals 1 a ha
    obtain ⟨e1, e2⟩ := hcl 1 hd dut hdut r hr c hc
    rw [e1, e2, if_pos rfl]
    unfold AtLocal movedTo
    dsimp only
    rw [hrot]
    ext i
    fin_cases i <;> simp [shTruth, shPos] <;> ring
  · rintro d a ha r hr ⟨u, w, h⟩
    obtain ⟨hd, rfl⟩ := hals d a ha
    dsimp only at h
    rw [hrot] at h
    have := congrFun h 2
    simp [shTruth] at this
  · intro d hd d' hd' hne r hr
    simp only [shTruth]
    intro h
    exact hne (Nat.cast_injective (sub_left_injective h))

noncomputable def shDut : DutConf := ⟨⟨0, 0, 1, 0, 0, 0⟩, none, none⟩

theorem shTrack (p : Int × Nat) : IsTrack shTruth (shTable 0) p ↔ p.2 = 0 ∧ 0 ≤ p.1 ∧ p.1 ≤ 4 := by
  unfold IsTrack
  constructor
  · rintro ⟨-, h⟩
    by_cases he : 0 ≤ p.1 ∧ p.1 ≤ 4
    · simp [shTruth, he] at h
      exact ⟨h, he⟩
    · simp [shTruth, he] at h
  · rintro ⟨h, he⟩
    refine ⟨⟨shClust 0 4, by simp [shTable], he.2⟩, ?_⟩
    simp [shTruth, he, h]

theorem shHas (e : Int) (he : 0 ≤ e ∧ e ≤ 4) (d : Nat) (hd : d < 3) : HasCluster shTruth [shTable 0, shTable 1, shTable 2] d (e, 0) := by
  unfold HasCluster
  dsimp only
  rw [shEvent e d hd, if_pos he]
  simp [shTruth]

/-- C203: DUT 1 is put to (0.5, 0, 1.25). -/
example (S S' : Sampling) : ∃ (g : Config) (merged : _) (out : List (Row (Value ℝ))) (tables : _) (rows : List (BTA.Fit.Row ℝ (Option Vec3))) (new : Alignment),
    mergeClusterData Clust.ev (shTable 0) [shTable 1, shTable 2] 10 = .ok merged ∧
    findFile (telescopeSetting exBeam g.duts [0, 1, 2] [0, 1, 2]) S 0 10 (merged.map (mergedRow exDuts)) = some (out, none) ∧
    BTA.Fit.fitTracks (lineEst g) [] false false S' 0 10 (out.map fitCand) [⟨1, [0, 2], [1], false, none⟩] = .ok tables ∧ (1, rows) ∈ tables ∧
    dutTransformation BTA.Transformation.Props.idealNumpy {} 3 allParameters shDut (rows.map (alignRow 1)) = .ok new ∧
    new.alpha = 0 ∧ new.beta = 0 ∧ new.gamma = 0 ∧ |new.x - 1 / 2| ≤ 2.4e-4 ∧ |new.y| ≤ 2.4e-4 ∧ |new.z - 5 / 4| ≤ 2.4e-4 := by
  obtain ⟨svd0, h0⟩ := BTA.AlignTel.exists_svd
  let g : Config := ⟨exAls, [], fun _ => (0, 0), fun rows => some (svd0 rows), 4, fun _ => 0⟩
  have hsorted : ∀ d, SortedBy Clust.ev (shTable d) := by
    intro d
    unfold SortedBy shTable
    rw [List.pairwise_map]
    show ([0, 1, 2, 3, 4] : List Int).Pairwise fun a b => a ≤ b
    decide
  obtain ⟨merged, out, tables, h1, h2, h3, h4⟩ := C203_alignment exDuts g exBeam exPlanes blFlat rfl (by decide) [0, 1, 2] [0, 1, 2] (show [0, 1, 2].Perm (List.range 3) by decide) 0 [1, 2] rfl
    (1 / 2) 1 2 blLever S 10 (by decide) (shTable 0) [shTable 1, shTable 2] rfl (hsorted 0)
    (fun T h => by
      simp only [List.mem_cons, List.not_mem_nil, or_false] at h
      rcases h with rfl | rfl
      · exact hsorted 1
      · exact hsorted 2)
    (by
      intro T h e
      refine lt_of_le_of_lt (List.length_filter_le _ _) ?_
      simp only [List.mem_cons, List.not_mem_nil, or_false] at h
      rcases h with rfl | rfl | rfl <;> simp [shTable])
    (show 4 ≠ 0 by decide) (by
      intro rows v hv
      rw [← Option.some.inj hv]
      exact h0 rows) (fun _ => rfl) 1 shPos (fun _ _ => 0) shTruth (fun e _ => shShifted e) [] (fun P hP => by cases hP) S' 10 (le_refl _) [⟨1, [0, 2], [1], false, none⟩] (by decide) (by decide)
    (by decide)
  obtain ⟨rows, hrows, h5⟩ := h4 _ List.mem_cons_self rfl (by decide) ⟨0, 0, 1, 0, 0, 0⟩ rfl
  have hpi := Real.pi_pos
  obtain ⟨new, n1, n2, n3, n4, n5⟩ := (h5 shDut rfl).2
    (by
      refine ⟨?_, ?_, ?_, ?_⟩
      · simp; exact ⟨hpi, hpi.le⟩
      · simp; exact ⟨hpi, hpi.le⟩
      · simp; exact hpi
      · simp)
    (by
      intro j
      fin_cases j <;> simp [position, shPos] <;> norm_num [abs_le])
    (by
      have : {p | IsTrack shTruth (shTable 0) p} ⊆ (((Finset.Icc (0 : Int) 4) ×ˢ ({0} : Finset Nat) : Finset (Int × Nat)) : Set (Int × Nat)) := by
        intro p hp
        obtain ⟨h1, h2⟩ := (shTrack p).mp hp
        rw [Finset.mem_coe, Finset.mem_product, Finset.mem_Icc, Finset.mem_singleton]
        exact ⟨h2, h1⟩
      refine le_trans (Set.ncard_le_ncard this (Finset.finite_toSet _)) ?_
      rw [Set.ncard_coe_finset, Finset.card_product]
      simp)
    (by
      intro w v h
      have hmem : ∀ e : Int, 0 ≤ e ∧ e ≤ 4 → ∃ c : ℝ, cross w ![shX e, shY e, 0] + v = c • ![shB e, 0, 1] := by
        intro e he
        obtain ⟨c, hc⟩ := h (e, 0) ⟨(shTrack _).mpr ⟨rfl, he⟩, (by
          classical
          refine ⟨?_, ?_⟩
          · intro d hd
            rw [List.mem_singleton] at hd
            subst hd
            exact shHas e he 1 (by decide)
          · have : ((ownFit ⟨1, [0, 2], [1], false, none⟩).filter fun d => HasCluster shTruth [shTable 0, shTable 1, shTable 2] d (e, 0)) = ownFit ⟨1, [0, 2], [1], false, none⟩ := by
              refine Finset.filter_true_of_mem fun d hd => shHas e he d ?_
              have : ∀ d ∈ ownFit ⟨1, [0, 2], [1], false, none⟩, d < 3 := by decide
              exact this d hd
            rw [this]
            decide), shHas e he 1 (by decide), fun u w _ => ⟨fun l hl => (nomatch hl), fun l hl => (nomatch hl)⟩⟩
        refine ⟨c, ?_⟩
        have e1 : (shTruth e).p 0 + (0 : ℝ) • (shTruth e).v 0 - shPos = ![shX e, shY e, 0] := by
          ext i
          fin_cases i <;> simp [shTruth, shPos]
        dsimp only at hc
        rw [e1] at hc
        exact hc
      obtain ⟨a, ha⟩ := hmem 0 (by decide)
      obtain ⟨b, hb⟩ := hmem 1 (by decide)
      obtain ⟨c, hc⟩ := hmem 2 (by decide)
      obtain ⟨e, he⟩ := hmem 3 (by decide)
      obtain ⟨f, hf⟩ := hmem 4 (by decide)
      have a0 := congrFun ha 0; have a1 := congrFun ha 1
      have b0 := congrFun hb 0; have b1 := congrFun hb 1
      have c0 := congrFun hc 0; have c2 := congrFun hc 2
      have e0 := congrFun he 0; have e2 := congrFun he 2
      have f0 := congrFun hf 0; have f2 := congrFun hf 2
      simp [cross, shX, shY, shB] at a0 a1 b0 b1 c0 c2 e0 e2 f0 f2
      constructor
      · ext k; fin_cases k <;> simp <;> linarith
      · ext k; fin_cases k <;> simp <;> linarith)
    BTA.Transformation.Props.idealNumpy BTA.Transformation.Props.idealNumpy_svd BTA.Transformation.Props.idealNumpy_pinv 3 le_rfl
  refine ⟨g, merged, out, tables, rows, new, h1, h2, h3, hrows, n1, n2, n3, n4, ?_, ?_, ?_⟩
  · exact n5 0
  · have := n5 1
    simpa [position, shPos] using this
  · exact n5 2

end BTA.Chain.Props
