import Verif.Model.ChainKalmanRes
import Verif.Spec.ChainKalmanRes
import Verif.Props.ChainKalman
import Verif.Props.ChainResiduals
/-
C227: the complete chain with the Kalman filter: all residuals of exact tracks are zero. C228: all hits are pure.
-/
namespace BTA.Chain.Props
open BTA.Chain BTA.MergedColumns BTA.Line BTA.Dut BTA.Geo BTA.Spec BTA.Merge BTA.FindFile
open BTA.Fit (Sampling DutCfg)

theorem kalmanHit_row (k : Nat) (r : BTA.Fit.Row ℝ (Option (Vec3 × ℝ × Int))) (row : Row (Value ℝ)) (h : r.cand = fitCand row) :
    kalmanHit k r = (candOf row k).map fun x => (x.x, x.y) := by
  unfold kalmanHit candOf
  rw [h]
  unfold fitCand
  dsimp only
  cases hitOf k row.cols <;> rfl

open Classical in
/-- C227: the complete chain as in C217: the table of `fit_tracks` shows each true track that fulfils the requirements exactly once, exactly, and nothing else. -/
theorem C227_stored (duts : List (Bool × Pixels ℝ)) (k : KalmanConfig) (hk : Usable k) (err : BTA.Fit.Cand ℝ → Nat → ℝ × ℝ) (herr : ∀ c d, (err c d).1 ≠ 0 ∧ (err c d).2 ≠ 0)
    (beam : Option Alignment) (hb : SamePlanes beam (k.planes.map placeOf)) (hn : k.planes.length = duts.length) (h10 : duts.length ≤ 10) (zs extrap : List Nat)
    (hz : zs.Perm (List.range k.planes.length)) (f : Nat) (ds : List Nat) (hf : zs = f :: ds) (S : Sampling) (cs : Nat) (hcs : 0 < cs) (T0 : List (Clust ℝ)) (others : List (List (Clust ℝ)))
    (hd : duts.length = others.length + 1) (hs0 : SortedBy Clust.ev T0) (hs : ∀ T ∈ others, SortedBy Clust.ev T)
    (hm : ∀ T ∈ T0 :: others, ∀ e, BTA.Spec.multiplicity Clust.ev T e < cs)
    (truth : Int → Truth)
    (hI : ∀ e, (∃ x ∈ T0, e ≤ x.ev) → Straight beam duts (k.planes.map placeOf) (eventOf (T0 :: others) e) f (truth e))
    (planes : List (BTA.Fit.Plane ℝ)) (hcut : ∀ P ∈ planes, ValidCuts P) (S' : Sampling) (cs1 : Nat) (hcs1 : cs ≤ cs1) (cfgs : List DutCfg) (hnd : (cfgs.map DutCfg.dut).Nodup)
    (hfit : ∀ c ∈ cfgs, c.fitDuts.Nodup) (hreq : ∀ c ∈ cfgs, 2 ≤ required c ∧ required c ≤ (ownFit c).card) :
    ∃ merged out tables, mergeClusterData Clust.ev T0 others cs = .ok merged ∧
      findFile (telescopeSetting beam (k.planes.map placeOf) zs extrap) S 0 cs (merged.map (mergedRow duts)) = some (out, none) ∧
      BTA.Fit.fitTracks (kalmanEst k err) planes false true S' 0 cs1 (out.map fitCand) cfgs = .ok tables ∧
      ∀ c ∈ cfgs, (∃ rows, (c.dut, rows) ∈ tables) ∧
        ∀ P, k.planes[c.dut]? = some P → ∀ rows, (c.dut, rows) ∈ tables →
          SortedBy (fun r : BTA.Fit.Row ℝ (Option (Vec3 × ℝ × Int)) => r.cand.event) rows ∧ ExactTable truth T0 (T0 :: others) c (placeOf P) rows := by
  have hlenA : (k.planes.map placeOf).length = k.planes.length := List.length_map _
  have hn' : (k.planes.map placeOf).length = duts.length := by omega
  have hz' : zs.Perm (List.range (k.planes.map placeOf).length) := by rw [hlenA]; exact hz
  obtain ⟨merged, out, h1, h2, hlast, hev0⟩ := C185_candidates duts (k.planes.map placeOf) beam hb hn' h10 zs extrap hz' f ds hf S cs hcs T0 others hd hs0 hs hm
  have hev := fun e he => hev0 e (truth e) he (hI e he)
  obtain ⟨hsort, hmult, -⟩ := out_facts duts (k.planes.map placeOf) beam hn' h10 zs extrap hz' S cs hcs T0 others hd hs0 hs hm merged out h1 h2
  have hT : SortedBy BTA.Fit.Cand.event (out.map fitCand) := by
    unfold SortedBy at hsort ⊢
    exact List.pairwise_map.mpr hsort
  have hflag : ∀ t ∈ out.map fitCand, t.flag < 2 ^ 32 := by
    intro t ht
    obtain ⟨row, -, rfl⟩ := List.mem_map.mp ht
    exact row.flag.isLt
  have hmul : ∀ e, BTA.Spec.multiplicity BTA.Fit.Cand.event (out.map fitCand) e < cs1 := by
    intro e
    refine lt_of_lt_of_le ?_ hcs1
    have : BTA.Spec.multiplicity BTA.Fit.Cand.event (out.map fitCand) e = BTA.Spec.multiplicity Row.ev out e := by
      unfold BTA.Spec.multiplicity
      rw [List.filter_map, List.length_map]
      rfl
    rw [this]
    exact hmult e
  obtain ⟨tables, h3, h4⟩ := BTA.Fit.Props.C24_tracks_table (kalmanEst k err) planes hcut true S' cs1 (out.map fitCand) hT hflag hmul cfgs hnd hfit hreq
  have hempty : ∀ e d, duts.length ≤ d → eventOf (T0 :: others) e d = [] := by
    intro e d hd'
    unfold eventOf
    rw [List.getD_eq_getElem?_getD, List.getElem?_eq_none (by simp only [List.length_cons]; omega)]
    rfl
  -- the rows and the true tracks
  have hbit : ∀ (row : Row (Value ℝ)) (p : Int × Nat), row ∈ out → row.ev = p.1 → (out.filter fun x => decide (x.ev = p.1))[p.2]? = some row → ∀ d,
      (row.flag.toNat.testBit d = true ↔ HasCluster truth (T0 :: others) d p) := by
    rintro row ⟨e, r⟩ hrow he hr d
    dsimp only at he hr
    subst he
    have hlast' := hlast row hrow
    by_cases hd32 : d < 32
    · rw [← BitVec.getLsbD]
      exact C185_flag duts (k.planes.map placeOf) beam hb hn' h10 zs extrap hz' f ds hf S cs hcs T0 others hd hs0 hs hm merged out h1 h2 row.ev (truth row.ev) hlast' (hI _ hlast') r row hr d hd32
    · have e1 : row.flag.toNat.testBit d = false := by
        rw [← BitVec.getLsbD]
        exact BitVec.getLsbD_of_ge _ _ (by omega)
      rw [e1]
      unfold HasCluster
      rw [hempty _ d (by omega)]
      simp
  have hrank : ∀ row ∈ out, ∃ n : Nat, (out.filter fun x => decide (x.ev = row.ev))[n]? = some row := by
    intro row hrow
    exact List.getElem?_of_mem (List.mem_filter.mpr ⟨hrow, by simp⟩)
  have hmain : ∀ (F : Finset Nat) (row : Row (Value ℝ)) (n : Nat), row ∈ out → (out.filter fun x => decide (x.ev = row.ev))[n]? = some row → 2 ≤ hitsIn row.flag.toNat F →
      n < (truth row.ev).m ∧ ∃ fit, kalmanTrack k err F (fitCand row) = .ok fit ∧ ∀ (d : Nat) (P : BTA.Kalman.Plane), k.planes[d]? = some P → ∃ u w slope,
        kalmanEst k err F (fitCand row) d = ⟨some u, some w, some (slope, 0, 2 * (F.filter fun d => HasCluster truth (T0 :: others) d (row.ev, n)).card - 4)⟩ ∧
        TrueTrack truth P (row.ev, n) u w slope := by
    intro F row n hrow hr htwo
    have hlast' := hlast row hrow
    obtain ⟨g1, g2⟩ := hev row.ev hlast'
    have hnm : n < (truth row.ev).m := by rw [← g1]; exact (List.getElem?_eq_some_iff.mp hr).1
    refine ⟨hnm, ?_⟩
    have hcard : (F.filter fun d => HasCluster truth (T0 :: others) d (row.ev, n)).card =
        (F.filter fun d => (truth row.ev).own n d < (eventOf (T0 :: others) row.ev d).length).card := by
      congr 1
      ext d
      simp only [Finset.mem_filter]
      rfl
    obtain ⟨fit, hfit', hall⟩ := kalman_row k hk err herr beam duts hn (eventOf (T0 :: others) row.ev) (hempty _) f (truth row.ev) (hI _ hlast') n hnm F row (g2 n row hr) (by
      rw [← hcard]
      refine le_trans htwo (le_of_eq ?_)
      unfold hitsIn
      congr 1
      ext d
      simp only [Finset.mem_filter]
      exact and_congr_right fun _ => hbit row (row.ev, n) hrow rfl hr d)
    rw [hcard]
    exact ⟨fit, hfit', hall⟩
  refine ⟨merged, out, tables, h1, h2, h3, fun c hc => ⟨?_, ?_⟩⟩
  · obtain ⟨rows, hrows, -⟩ := h4 c hc
    exact ⟨rows, hrows⟩
  intro P hP rows hrows
  have hdl : c.dut < duts.length := by
    rw [← hn]
    exact (List.getElem?_eq_some_iff.mp hP).1
  have htaken : ∀ (row : Row (Value ℝ)) (p : Int × Nat), row ∈ out → row.ev = p.1 → (out.filter fun x => decide (x.ev = p.1))[p.2]? = some row →
      (Stored true c row.flag.toNat ↔ TakenKalman truth (T0 :: others) c p) := fun row p a1 a2 a3 => stored_takenKalman T0 others truth c row p (hbit row p a1 a2 a3)
  -- a stored row of the table
  have hstate : ∀ (row : Row (Value ℝ)) (p : Int × Nat), row ∈ out → row.ev = p.1 → (out.filter fun x => decide (x.ev = p.1))[p.2]? = some row →
      Stored true c row.flag.toNat → p.2 < (truth p.1).m ∧ ∃ u w slope, kalmanEst k err (ownFit c) (fitCand row) c.dut =
        ⟨some u, some w, some (slope, 0, 2 * ((ownFit c).filter fun d => HasCluster truth (T0 :: others) d p).card - 4)⟩ ∧ TrueTrack truth P p u w slope := by
    rintro row ⟨e, n⟩ hrow he hr hst
    dsimp only at he hr ⊢
    subst he
    obtain ⟨hnm, fit, -, hall⟩ := hmain (ownFit c) row n hrow hr (le_trans (hreq c hc).1 hst.2.1)
    exact ⟨hnm, hall c.dut P hP⟩
  have hrel : List.Forall₂ (fun (row : Row (Value ℝ)) (r : BTA.Fit.Row ℝ (Option (Vec3 × ℝ × Int))) => r.cand = fitCand row ∧ r.est = kalmanEst k err (ownFit c) (fitCand row) c.dut)
      (out.filter fun row => decide (Stored true c row.flag.toNat)) rows := by
    have h57 := BTA.Fit.Props.C57_flags (kalmanEst k err) planes hcut true S' cs1 (by omega) (out.map fitCand) hT hflag cfgs hfit tables h3 c hc rows hrows
    have e1 : (out.filter fun row => decide (Stored true c row.flag.toNat)) = (out.zipIdx.filter fun p => decide (Stored true c p.1.flag.toNat)).map Prod.fst := by
      conv_lhs => rw [← List.zipIdx_map_fst 0 out]
      rw [List.filter_map]
      rfl
    have e2 : ((out.map fitCand).zipIdx.filter fun p => decide (Stored true c p.1.flag)) =
        (out.zipIdx.filter fun p => decide (Stored true c p.1.flag.toNat)).map (Prod.map fitCand id) := by
      rw [List.zipIdx_map, List.filter_map]
      rfl
    rw [e2, List.forall₂_map_left_iff] at h57
    rw [e1, List.forall₂_map_left_iff]
    exact h57.imp fun p r h => ⟨h.1, h.2.1⟩
  have hrsort : SortedBy (fun r : BTA.Fit.Row ℝ (Option (Vec3 × ℝ × Int)) => r.cand.event) rows := by
    have e1 : rows.map (fun r => r.cand.event) = (out.filter fun row => decide (Stored true c row.flag.toNat)).map Row.ev := by
      symm
      rw [← List.forall₂_eq_eq_eq, List.forall₂_map_left_iff, List.forall₂_map_right_iff]
      refine hrel.imp fun row r h => ?_
      rw [h.1]
      rfl
    unfold SortedBy at hsort ⊢
    have : (rows.map fun r => r.cand.event).Pairwise (· ≤ ·) := by
      rw [e1]
      exact List.pairwise_map.mpr (hsort.filter _)
    exact List.pairwise_map.mp this
  obtain ⟨L, hL1, hL2, hL3⟩ := exists_ranks Row.ev out
  have hLtrack : ∀ p, p ∈ L ↔ IsTrack truth T0 p := by
    intro p
    rw [hL2]
    unfold IsTrack
    by_cases he : ∃ x ∈ T0, p.1 ≤ x.ev
    · rw [(hev p.1 he).1]
      exact ⟨fun h => ⟨he, h⟩, fun h => h.2⟩
    · have : (out.filter fun x => decide (x.ev = p.1)) = [] := by
        rw [List.filter_eq_nil_iff]
        intro row hrow
        rw [decide_eq_true_eq]
        intro h
        exact he (h ▸ hlast row hrow)
      rw [this]
      simp [he]
  refine ⟨hrsort, L.filter fun p => decide (TakenKalman truth (T0 :: others) c p), hL1.filter _, ?_, ?_⟩
  · intro p
    rw [List.mem_filter, hLtrack, decide_eq_true_eq]
  have h5 := forall₂_filter hL3 (fun row => Stored true c row.flag.toNat) (fun p => TakenKalman truth (T0 :: others) c p) fun row p hmem hr => htaken row p hmem hr.1 hr.2
  refine (forall₂_join h5 hrel).imp ?_
  rintro r ⟨e, n⟩ ⟨row, ⟨hcand, hest⟩, hrow, hst, he, hr⟩
  obtain ⟨hnm, u, w, slope, hest', htt⟩ := hstate row (e, n) hrow he hr hst
  dsimp only at he hr hnm ⊢
  subst he
  have hlast' := hlast row hrow
  obtain ⟨-, hcl⟩ := hev row.ev hlast'
  have ha : (k.planes.map placeOf)[c.dut]? = some (placeOf P) := by rw [List.getElem?_map, hP]; rfl
  obtain ⟨⟨u', w', hloc'⟩, -⟩ := (hI row.ev hlast').crosses c.dut _ ha n hnm
  have hobs := BTA.Props.hit_of_state P _ ⟨u', w', 0, 0⟩ _ _ htt.2 ⟨(truth row.ev).l n c.dut, ((atLocal_placeOf P _ _ _).mp hloc').symm⟩
  have hu : u = u' := by
    have := congrFun hobs 0
    simpa [BTA.Kalman.obsMat, Matrix.mulVec, dotProduct, Fin.sum_univ_succ] using this
  have hw : w = w' := by
    have := congrFun hobs 1
    simpa [BTA.Kalman.obsMat, Matrix.mulVec, dotProduct, Fin.sum_univ_succ] using this
  subst hu hw
  rw [hest'] at hest
  refine ⟨by rw [hcand]; rfl, ⟨slope, _, by rw [hest]⟩, u, w, hloc', by rw [hest], by rw [hest], ?_, ?_⟩
  · intro hlt
    rw [kalmanHit_row _ _ row hcand, hcl n row hr c.dut _ (List.getElem?_eq_getElem hdl)]
    have hmeas := (hI row.ev hlast').measured c.dut _ _ ha (List.getElem?_eq_getElem hdl) n hnm _ (List.getElem?_eq_getElem hlt)
    obtain ⟨e0, e1⟩ := atLocal_inj _ _ _ _ _ _ hloc' hmeas
    rw [List.getElem?_eq_getElem hlt, e0, e1]
    rfl
  · intro hlt
    rw [kalmanHit_row _ _ row hcand, hcl n row hr c.dut _ (List.getElem?_eq_getElem hdl)]
    rw [List.getElem?_eq_none (not_lt.mp hlt)]
    rfl

/-! ### Counting the rows of such a table -/

theorem number_exact {truth : Int → Truth} {T0 : List (Clust ℝ)} {tables : List (List (Clust ℝ))} {c : DutCfg} {a : Alignment} {rows : List (BTA.Fit.Row ℝ (Option (Vec3 × ℝ × Int)))}
    (ht : ExactTable truth T0 tables c a rows) (Q : BTA.Fit.Row ℝ (Option (Vec3 × ℝ × Int)) → Prop) (P : Int × Nat → Prop)
    (h : ∀ r p, ShowsExactly truth tables c.dut a r p → (Q r ↔ P p)) :
    number rows Q = Set.ncard {p | IsTrack truth T0 p ∧ TakenKalman truth tables c p ∧ P p} := by
  obtain ⟨L, h1, h2, h3⟩ := ht
  rw [number_forall₂ h3 (Q := P) fun r p _ hr => h r p hr, number_nodup L h1]
  congr 1
  ext p
  rw [Set.mem_setOf_eq, Set.mem_setOf_eq, h2, and_assoc]

theorem exact_mem {truth : Int → Truth} {T0 : List (Clust ℝ)} {tables : List (List (Clust ℝ))} {c : DutCfg} {a : Alignment} {rows : List (BTA.Fit.Row ℝ (Option (Vec3 × ℝ × Int)))}
    (ht : ExactTable truth T0 tables c a rows) (r : BTA.Fit.Row ℝ (Option (Vec3 × ℝ × Int))) (hr : r ∈ rows) : ∃ p, ShowsExactly truth tables c.dut a r p := by
  obtain ⟨L, -, -, h3⟩ := ht
  clear * - h3 hr
  induction h3 with
  | nil => cases hr
  | cons hab _ ih =>
    rcases List.mem_cons.mp hr with rfl | hr
    · exact ⟨_, hab⟩
    · exact ih hr

section
open BTA.Residuals BTA.Residuals.Spec

/-- C227: the residuals of a table as in `C227_stored`, for every setting and chunk size. Only the bins with the value 0 are filled, all mean residuals and mean distances are 0. Without limits
the bin with the value 0 has all taken tracks that are seen by the DUT; each pixel has those that cross it. -/
theorem C227_residuals (truth : Int → Truth) (T0 : List (Clust ℝ)) (tables : List (List (Clust ℝ))) (c : DutCfg) (a : Alignment)
    (rows : List (BTA.Fit.Row ℝ (Option (Vec3 × ℝ × Int)))) (hsort : SortedBy (fun r : BTA.Fit.Row ℝ (Option (Vec3 × ℝ × Int)) => r.cand.event) rows)
    (ht : ExactTable truth T0 tables c a rows) (s : Setup ℝ) (hsq : s.sqrt = Real.sqrt) (cs : Nat) (hcs : 0 < cs)
    (e : Edges ℝ) (h : Hists ℝ) (hr : residuals s (rows.map (kalmanResidualRow c.dut)) cs = .ok (e, h))
    (hrx : ValidEdges e.resX) (hry : ValidEdges e.resY) (hpx : ValidEdges e.posX) (hpy : ValidEdges e.posY) (hex : ValidEdges s.edges2dX) (hey : ValidEdges s.edges2dY) :
    let seen := fun P => Set.ncard {p | IsTrack truth T0 p ∧ TakenKalman truth tables c p ∧ HasCluster truth tables c.dut p ∧ Crosses truth a c.dut (fun _ _ => true) P p}
    (∀ i, h.resX i ≠ 0 → InBin e.resX i 0) ∧ (∀ i, h.resY i ≠ 0 → InBin e.resY i 0) ∧
    (s.limitX = none → s.limitY = none → (∀ i, InBin e.resX i 0 → h.resX i = seen fun _ _ => True) ∧ ∀ i, InBin e.resY i 0 → h.resY i = seen fun _ _ => True) ∧
    (∀ i m, h.xx.final i = some m ∨ h.yy.final i = some m ∨ h.yx.final i = some m ∨ h.xy.final i = some m → m = 0) ∧
    ∀ i j, h.mean2d (i, j) = 0 ∧ h.hits2d (i, j) = seen fun u w => InBin s.edges2dX i u ∧ InBin s.edges2dY j w := by
  intro seen
  have hsT : SortedBy Track.event (rows.map (kalmanResidualRow c.dut)) := by
    unfold SortedBy at hsort ⊢
    exact List.pairwise_map.mpr hsort
  obtain ⟨g1, g2, g3, g4, g5, g6, -⟩ := BTA.Residuals.Props.C44_given_binning_partial s _ hsT cs hcs e h hr hrx hry hpx hpy
  have hfound : ∀ r p, ShowsExactly truth tables c.dut a r p → (Found (kalmanResidualRow c.dut r) ↔ HasCluster truth tables c.dut p) := by
    intro r p hp
    obtain ⟨sl, n, ho⟩ := hp.chi2
    obtain ⟨u, w, -, -, -, h1, h2⟩ := hp.position
    unfold Found kalmanResidualRow
    dsimp only
    rw [ho]
    by_cases hc : HasCluster truth tables c.dut p
    · rw [h1 hc]
      exact ⟨fun _ => hc, fun _ => ⟨rfl, rfl⟩⟩
    · rw [h2 hc]
      exact ⟨fun h => absurd h.1 (by simp), fun h => absurd h hc⟩
  have hzero : ∀ t ∈ rows.map (kalmanResidualRow c.dut), Found t → resX t = 0 ∧ resY t = 0 := by
    intro t htm hf
    obtain ⟨r, hrm, rfl⟩ := List.mem_map.mp htm
    obtain ⟨p, hp⟩ := exact_mem ht r hrm
    obtain ⟨u, w, -, hx, hy, h1, -⟩ := hp.position
    have hh := h1 ((hfound r p hp).mp hf)
    unfold resX resY hitX hitY kalmanResidualRow
    dsimp only
    rw [hh, hx, hy]
    exact ⟨sub_self _, sub_self _⟩
  have htotal : number (rows.map (kalmanResidualRow c.dut)) Found = seen fun _ _ => True := by
    rw [number_map]
    refine number_exact ht _ (fun p => HasCluster truth tables c.dut p ∧ Crosses truth a c.dut (fun _ _ => true) (fun _ _ => True) p) fun r p hp => ?_
    rw [hfound r p hp]
    obtain ⟨u, w, hloc, -⟩ := hp.position
    exact ⟨fun h => ⟨h, u, w, hloc, rfl, trivial⟩, fun h => h.1⟩
  have hne : ∀ (P : Track ℝ → Prop), number (rows.map (kalmanResidualRow c.dut)) P ≠ 0 → ∃ t ∈ rows.map (kalmanResidualRow c.dut), P t := by
    intro P hP
    classical
    unfold number at hP
    obtain ⟨t, htm⟩ := List.exists_mem_of_ne_nil _ (List.ne_nil_of_length_pos (Nat.pos_of_ne_zero hP))
    exact ⟨t, (List.mem_filter.mp htm).1, of_decide_eq_true (List.mem_filter.mp htm).2⟩
  have hval : ∀ (P : Track ℝ → Prop) (f : Track ℝ → ℝ), (∀ t ∈ rows.map (kalmanResidualRow c.dut), P t → f t = 0) →
      ∀ m, mean (valuesOf (rows.map (kalmanResidualRow c.dut)) P f) = some m → m = 0 := by
    intro P f hP m hm
    refine abs_nonpos_iff.mp (mean_le _ 0 m (fun v hv => ?_) hm)
    classical
    unfold valuesOf at hv
    obtain ⟨t, htm, rfl⟩ := List.mem_map.mp hv
    rw [hP t (List.mem_filter.mp htm).1 (of_decide_eq_true (List.mem_filter.mp htm).2), abs_zero]
  have hcongr : ∀ (P Q : Track ℝ → Prop), (∀ t ∈ rows.map (kalmanResidualRow c.dut), (P t ↔ Q t)) →
      number (rows.map (kalmanResidualRow c.dut)) P = number (rows.map (kalmanResidualRow c.dut)) Q := by
    intro P Q hPQ
    classical
    unfold number
    congr 1
    exact List.filter_congr fun t ht => decide_eq_decide.mpr (hPQ t ht)
  refine ⟨?_, ?_, ?_, ?_, ?_⟩
  · intro i hi
    rw [g1] at hi
    obtain ⟨t, htm, hf, -, -, hb⟩ := hne _ hi
    rwa [(hzero t htm hf).1] at hb
  · intro i hi
    rw [g2] at hi
    obtain ⟨t, htm, hf, -, -, hb⟩ := hne _ hi
    rwa [(hzero t htm hf).2] at hb
  · intro hlx hly
    have hin : ∀ v, Inside s.limitX v ∧ Inside s.limitY v := by
      intro v
      rw [hlx, hly]
      exact ⟨fun _ h => (nomatch h), fun _ h => (nomatch h)⟩
    refine ⟨fun i hi => ?_, fun i hi => ?_⟩
    · rw [g1, ← htotal]
      exact hcongr _ _ fun t htm => ⟨fun h => h.1, fun h => ⟨h, (hin _).1, (hin _).2, by rwa [(hzero t htm h).1]⟩⟩
    · rw [g2, ← htotal]
      exact hcongr _ _ fun t htm => ⟨fun h => h.1, fun h => ⟨h, (hin _).1, (hin _).2, by rwa [(hzero t htm h).2]⟩⟩
  · intro i m hm
    rw [g3.avg_eq, g4.avg_eq, g5.avg_eq, g6.avg_eq] at hm
    rcases hm with hm | hm | hm | hm
    · exact hval _ _ (fun t htm hP => (hzero t htm hP.1).1) m hm
    · exact hval _ _ (fun t htm hP => (hzero t htm hP.1).2) m hm
    · exact hval _ _ (fun t htm hP => (hzero t htm hP.1).2) m hm
    · exact hval _ _ (fun t htm hP => (hzero t htm hP.1).1) m hm
  · intro i j
    obtain ⟨k1, -, k3⟩ := BTA.Residuals.Props.C44_pixel_map s _ hsT cs hcs e h hr hex hey i j
    refine ⟨?_, ?_⟩
    · generalize hmn : mean (valuesOf (rows.map (kalmanResidualRow c.dut)) (fun t => Found t ∧ InBin s.edges2dX i t.ix ∧ InBin s.edges2dY j t.iy)
        fun t => s.sqrt (resX t * resX t + resY t * resY t)) = mn at k3
      cases mn with
      | none => exact Option.some.inj k3
      | some m =>
        rw [Option.some.inj k3]
        refine hval _ _ (fun t htm hP => ?_) m hmn
        rw [hsq, (hzero t htm hP.1).1, (hzero t htm hP.1).2]
        simp
    · rw [k1, number_map]
      refine number_exact ht _ (fun p => HasCluster truth tables c.dut p ∧
        Crosses truth a c.dut (fun _ _ => true) (fun u w => InBin s.edges2dX i u ∧ InBin s.edges2dY j w) p) fun r p hp => ?_
      rw [hfound r p hp]
      refine and_congr_right fun _ => ?_
      obtain ⟨u, w, hloc, hx, hy, -⟩ := hp.position
      unfold kalmanResidualRow Crosses
      dsimp only
      rw [hx, hy]
      constructor
      · exact fun h => ⟨u, w, hloc, rfl, h⟩
      · rintro ⟨u', w', hloc', -, h⟩
        obtain ⟨rfl, rfl⟩ := atLocal_inj _ _ _ _ _ _ hloc hloc'
        exact h

end

section
open BTA.Purity BTA.Purity.Spec

/-- C228: the purity of a table as in `C227_stored`, for any positive cut. Every hit is pure: the purity is 100 % in every bin with hits, and the hits of a bin are those of the taken tracks that
cross it. The maps are plotted if some bin has hits and reaches the minimum density. -/
theorem C228_purity (truth : Int → Truth) (T0 : List (Clust ℝ)) (tables : List (List (Clust ℝ))) (c : DutCfg) (a : Alignment)
    (rows : List (BTA.Fit.Row ℝ (Option (Vec3 × ℝ × Int)))) (hsort : SortedBy (fun r : BTA.Fit.Row ℝ (Option (Vec3 × ℝ × Int)) => r.cand.event) rows)
    (ht : ExactTable truth T0 tables c a rows) (s : Setup ℝ) (hx : s.extentX.1 < s.extentX.2) (hy : s.extentY.1 < s.extentY.2) (hsq : s.sqrt = Real.sqrt)
    (cut : ℝ) (hcut : s.cut = some cut) (hpos : 0 < cut) (hrx : s.rangeX = none) (hry : s.rangeY = none)
    (h0 : ∀ p, IsTrack truth T0 p → HasCluster truth tables c.dut p → ¬ AtLocal a ((truth p.1).at' p.2 c.dut) 0 0) (cs : Nat) (hcs : 0 < cs) :
    let seen := fun i j => Set.ncard {p | IsTrack truth T0 p ∧ TakenKalman truth tables c p ∧ HasCluster truth tables c.dut p ∧
      Crosses truth a c.dut (fun _ _ => true) (fun u w => InBin (edgesX s) i u ∧ InBin (edgesY s) j w) p}
    (∀ m, dutMaps s (rows.map (kalmanPurityRow c.dut)) cs = .ok m → ∀ i j,
      m.total (i, j) = seen i j ∧ m.pure (i, j) = seen i j ∧ m.purity (i, j) = (if seen i j = 0 then 0 else 100)) ∧
    ((∀ e, multiplicity (fun r : BTA.Fit.Row ℝ (Option (Vec3 × ℝ × Int)) => r.cand.event) rows e < cs) →
      (∃ i j, seen i j ≠ 0 ∧ s.minimumHitDensity ≤ (seen i j : ℝ)) → ∃ m, dutMaps s (rows.map (kalmanPurityRow c.dut)) cs = .ok m) := by
  intro seen
  have hsT : SortedBy Row.event (rows.map (kalmanPurityRow c.dut)) := by
    unfold SortedBy at hsort ⊢
    exact List.pairwise_map.mpr hsort
  have hroot : ExactRoot s.sqrt (rows.map (kalmanPurityRow c.dut)) := by
    intro r _ q _
    rw [hsq]
    exact ⟨Real.sqrt_nonneg _, Real.sq_sqrt (by positivity)⟩
  have hshow : ∀ r ∈ rows, ∃ p, (IsTrack truth T0 p ∧ TakenKalman truth tables c p) ∧ ShowsExactly truth tables c.dut a r p := by
    intro r hr
    obtain ⟨L, -, hL, h3⟩ := ht
    have hL' : ∀ p ∈ L, IsTrack truth T0 p ∧ TakenKalman truth tables c p := fun p hp => (hL p).mp hp
    clear hL
    induction h3 with
    | nil => cases hr
    | cons hab _ ih =>
      rcases List.mem_cons.mp hr with rfl | hr
      · exact ⟨_, hL' _ List.mem_cons_self, hab⟩
      · exact ih (by unfold SortedBy at hsort ⊢; exact (List.pairwise_cons.mp hsort).2) (by unfold SortedBy at hsT ⊢; exact (List.pairwise_cons.mp hsT).2)
          (fun t ht => hroot t (List.mem_cons_of_mem _ ht)) hr fun p hp => hL' p (List.mem_cons_of_mem _ hp)
  have hcut' : s.cut ≠ none := by rw [hcut]; exact fun h => by cases h
  have hzero : ∀ r ∈ rows.map (kalmanPurityRow c.dut), r.hit ≠ some (0, 0) := by
    intro t htm
    obtain ⟨r, hr, rfl⟩ := List.mem_map.mp htm
    obtain ⟨p, ⟨hp, -⟩, hs⟩ := hshow r hr
    obtain ⟨u, w, hloc, -, -, h1, h2⟩ := hs.position
    intro hh
    replace hh : kalmanHit c.dut r = some (0, 0) := hh
    by_cases hc : HasCluster truth tables c.dut p
    · rw [h1 hc, Option.some.injEq, Prod.mk.injEq] at hh
      obtain ⟨rfl, rfl⟩ := hh
      exact h0 p hp hc hloc
    · rw [h2 hc] at hh
      cases hh
  have hpure : ∀ i j, ∀ r ∈ rows.map (kalmanPurityRow c.dut), HitIn s i j r → PureHit s r := by
    intro i j t htm hhit
    obtain ⟨r, hrm, rfl⟩ := List.mem_map.mp htm
    obtain ⟨p, -, hp⟩ := hshow r hrm
    obtain ⟨u, w, -, hu, hw, h1, h2⟩ := hp.position
    obtain ⟨sl, dof, ho⟩ := hp.chi2
    obtain ⟨q, hq, -⟩ := hhit
    have hq' : kalmanHit c.dut r = some q := hq
    have hc : HasCluster truth tables c.dut p := by
      by_contra hc
      rw [h2 hc] at hq'
      cases hq'
    rw [h1 hc] at hq'
    obtain rfl := Option.some.inj hq'
    refine ⟨?_, ?_, ?_, (u, w), 0, cut, hq, le_refl _, ?_, hcut, hpos⟩
    · show r.est.other.isSome = true
      rw [ho]
      rfl
    · rw [hrx]
      exact fun _ h => by cases h
    · rw [hry]
      exact fun _ h => by cases h
    · unfold kalmanPurityRow
      dsimp only
      rw [hu, hw]
      simp
  have heq : ∀ i j, (number (rows.map (kalmanPurityRow c.dut)) fun r => PureHit s r ∧ HitIn s i j r) = number (rows.map (kalmanPurityRow c.dut)) (HitIn s i j) := by
    intro i j
    classical
    unfold number
    congr 1
    refine List.filter_congr fun r hr => ?_
    rw [decide_eq_decide]
    exact ⟨fun h => h.2, fun h => ⟨hpure i j r hr h, h⟩⟩
  have hseen : ∀ i j, number (rows.map (kalmanPurityRow c.dut)) (HitIn s i j) = seen i j := by
    intro i j
    rw [number_map]
    refine number_exact ht _ (fun p => HasCluster truth tables c.dut p ∧
      Crosses truth a c.dut (fun _ _ => true) (fun u w => InBin (edgesX s) i u ∧ InBin (edgesY s) j w) p) fun r p hp => ?_
    obtain ⟨u, w, hloc, -, -, h1, h2⟩ := hp.position
    constructor
    · rintro ⟨q, hq, hb⟩
      have hq' : kalmanHit c.dut r = some q := hq
      by_cases hc : HasCluster truth tables c.dut p
      · rw [h1 hc] at hq'
        obtain rfl := Option.some.inj hq'
        exact ⟨hc, u, w, hloc, rfl, hb⟩
      · rw [h2 hc] at hq'
        cases hq'
    · rintro ⟨hc, u', w', hloc', -, hb⟩
      obtain ⟨rfl, rfl⟩ := atLocal_inj _ _ _ _ _ _ hloc hloc'
      exact ⟨(u, w), h1 hc, hb⟩
  refine ⟨fun m hm i j => ?_, ?_⟩
  · obtain ⟨g1, g2, -, g4, g5⟩ := BTA.Purity.Props.C53_map_partial s _ hsT cs hcs hx hy hroot hcut' hzero m hm i j
    rw [heq] at g2 g5
    rw [hseen] at g1 g2 g4 g5
    refine ⟨g1, g2, ?_⟩
    split
    · rename_i hz
      exact g4 hz
    · rename_i hz
      rw [g5 hz]
      have : (seen i j : ℝ) ≠ 0 := by exact_mod_cast hz
      rw [mul_div_assoc, div_self this, mul_one]
      norm_num
      rfl
  · rintro hm ⟨i, j, hne, hd⟩
    refine BTA.Purity.Props.C53_plotted s _ hsT cs hcs ?_ hx hy hroot hcut' hzero i j (by rw [hseen]; exact hd) (by rw [hseen]; exact hne) (by rw [heq]; omega)
    intro e
    refine lt_of_eq_of_lt ?_ (hm e)
    unfold BTA.Spec.multiplicity
    rw [List.filter_map, List.length_map]
    rfl

/-- C228: without a positive cut no hit is pure, also for exact tracks: the function ends with an exception. -/
theorem C228_no_cut (T0 : List (BTA.Fit.Row ℝ (Option (Vec3 × ℝ × Int)))) (hsort : SortedBy (fun r : BTA.Fit.Row ℝ (Option (Vec3 × ℝ × Int)) => r.cand.event) T0) (k : Nat)
    (s : Setup ℝ) (hx : s.extentX.1 < s.extentX.2) (hy : s.extentY.1 < s.extentY.2) (hsq : s.sqrt = Real.sqrt) (cut : ℝ) (hcut : s.cut = some cut) (hpos : cut ≤ 0)
    (h0 : ∀ r ∈ T0, kalmanHit k r ≠ some (0, 0)) (cs : Nat) (hcs : 0 < cs) : ∃ e, dutMaps s (T0.map (kalmanPurityRow k)) cs = .error e := by
  cases hm : dutMaps s (T0.map (kalmanPurityRow k)) cs with
  | error e => exact ⟨e, rfl⟩
  | ok m =>
    exfalso
    have hsT : SortedBy Row.event (T0.map (kalmanPurityRow k)) := by
      unfold SortedBy at hsort ⊢
      exact List.pairwise_map.mpr hsort
    have hroot : ExactRoot s.sqrt (T0.map (kalmanPurityRow k)) := by
      intro r _ q _
      rw [hsq]
      exact ⟨Real.sqrt_nonneg _, Real.sq_sqrt (by positivity)⟩
    have hall : ∀ i j, m.purity (i, j) = 0 := by
      intro i j
      obtain ⟨-, -, -, g4, g5⟩ := BTA.Purity.Props.C53_map_partial s _ hsT cs hcs hx hy hroot (by rw [hcut]; exact fun h => by cases h) (by
        intro t htm
        obtain ⟨r, hr, rfl⟩ := List.mem_map.mp htm
        exact h0 r hr) m hm i j
      by_cases hz : number (T0.map (kalmanPurityRow k)) (HitIn s i j) = 0
      · exact g4 hz
      · rw [g5 hz]
        have : number (T0.map (kalmanPurityRow k)) (fun r => PureHit s r ∧ HitIn s i j r) = 0 := by
          classical
          unfold number
          rw [List.length_eq_zero_iff, List.filter_eq_nil_iff]
          intro r _
          intro hdec
          have hdec' : PureHit s r ∧ HitIn s i j r := by simpa using hdec
          obtain ⟨⟨-, -, -, h, d, c', -, hd, -, hc', hlt⟩, -⟩ := hdec'
          rw [hcut] at hc'
          obtain rfl := Option.some.inj hc'
          linarith
        rw [this]
        simp
    unfold dutMaps at hm
    dsimp only at hm
    split at hm
    · cases hm
    split at hm
    · cases hm
    unfold finish at hm
    dsimp only at hm
    split at hm
    · rename_i h
      obtain rfl := Except.ok.inj hm
      simp only [List.any_eq_true, Bool.and_eq_true, decide_eq_true_eq] at h
      obtain ⟨i, -, j, -, -, hne⟩ := h
      exact hne (hall i j)
    · cases hm

end

/-! ### Example: the telescope of C217, with a tilted DUT 1. -/

theorem kfHasSeen (P : ℝ → ℝ → Prop) (h : P 2 0) :
    Set.ncard {p | IsTrack kfTruth [kfClust 0, kfClust 1] p ∧ TakenKalman kfTruth ([kfClust 0, kfClust 1] :: kfOthers) ⟨1, [0, 2, 3], [], false, none⟩ p ∧
      HasCluster kfTruth ([kfClust 0, kfClust 1] :: kfOthers) 1 p ∧ Crosses kfTruth (placeOf BTA.Props.oblique) 1 (fun _ _ => true) P p} = 1 := by
  refine Eq.trans ?_ (kfSeen P h)
  congr 1
  ext p
  simp only [Set.mem_setOf_eq]
  have : exSetup.enabled = fun _ _ => true := rfl
  rw [this]
  tauto

theorem kfNotOrigin (p : Int × Nat) (hp : IsTrack kfTruth [kfClust 0, kfClust 1] p) : ¬ AtLocal (placeOf BTA.Props.oblique) ((kfTruth p.1).at' p.2 1) 0 0 := by
  have h : ∀ e, ¬ AtLocal (placeOf BTA.Props.oblique) ((kfTruth e).at' 0 1) 0 0 := by
    intro e h
    have := (kfLocal e fun u w => u = 0).mp ⟨0, 0, h, rfl, rfl⟩
    norm_num at this
  rcases (kfIsTrack p).mp hp with rfl | rfl
  · exact h 0
  · exact h 1

/-- C227 and C228: two tracks are stored for DUT 1, one of them is seen by it: one entry in the residual histograms, distance 0; this hit is pure. -/
example (S S' : Sampling) (fx : BTA.Kalman.Fixer) :
    ∃ (k : KalmanConfig) (merged : _) (out : List (Row (Value ℝ))) (tables : _) (rows : List (BTA.Fit.Row ℝ (Option (Vec3 × ℝ × Int)))) (e : _) (h : _),
    k.planes = kfPlanes ∧ mergeClusterData Clust.ev [kfClust 0, kfClust 1] kfOthers 10 = .ok merged ∧
    findFile (telescopeSetting none (k.planes.map placeOf) [0, 1, 2, 3] [0, 1, 2, 3]) S 0 10 (merged.map (mergedRow kfDuts)) = some (out, none) ∧
    BTA.Fit.fitTracks (kalmanEst k fun _ _ => (1, 1)) [] false true S' 0 10 (out.map fitCand) [⟨1, [0, 2, 3], [], false, none⟩] = .ok tables ∧ (1, rows) ∈ tables ∧
    rows.length = 2 ∧ BTA.Residuals.residuals exResiduals (rows.map (kalmanResidualRow 1)) 10 = .ok (e, h) ∧
    h.resX 0 = 1 ∧ h.resY 0 = 1 ∧ h.hits2d (0, 0) = 1 ∧ h.mean2d (0, 0) = 0 ∧
    ∃ m, BTA.Purity.dutMaps exPurity (rows.map (kalmanPurityRow 1)) 10 = .ok m ∧ m.total (0, 0) = 1 ∧ m.purity (0, 0) = 100 := by
  obtain ⟨svd, hsvd⟩ := BTA.AlignTel.exists_svd
  obtain ⟨argsort, hsort⟩ := BTA.Props.exists_argsort
  let k : KalmanConfig := ⟨kfPlanes, 5000, 0.511, fx, argsort, svd⟩
  have hk : Usable k := by
    refine ⟨hsort, hsvd, kfOrder, kfCrosses, ?_, ?_⟩
    · intro P hP
      obtain ⟨d, hd⟩ := List.getElem?_of_mem hP
      exact (kfPlane d P hd).2.2.2.2.2.1
    · intro P hP
      obtain ⟨d, hd⟩ := List.getElem?_of_mem hP
      exact (kfPlane d P hd).2.2.2.2.2.2
  obtain ⟨merged, out, tables, h1, h2, h3, h4⟩ := C227_stored kfDuts k hk (fun _ _ => (1, 1)) (fun _ _ => ⟨one_ne_zero, one_ne_zero⟩) none (fun _ _ _ => Iff.rfl) rfl (by decide)
    [0, 1, 2, 3] [0, 1, 2, 3] (show [0, 1, 2, 3].Perm (List.range 4) by decide) 0 [1, 2, 3] rfl S 10 (by decide) [kfClust 0, kfClust 1] kfOthers rfl
    (by simp [SortedBy, kfClust]) (by
      intro T hT
      simp only [kfOthers, List.mem_cons, List.not_mem_nil, or_false] at hT
      rcases hT with rfl | rfl | rfl <;> simp [SortedBy, kfClust]) (by
      intro T h e
      refine lt_of_le_of_lt (List.length_filter_le _ _) ?_
      simp only [kfOthers, List.mem_cons, List.not_mem_nil, or_false] at h
      rcases h with rfl | rfl | rfl | rfl <;> decide) kfTruth (fun e _ => kfStraight e) [] (fun P hP => by cases hP) S' 10 (le_refl _) [⟨1, [0, 2, 3], [], false, none⟩]
    (by decide) (by decide) (by decide)
  obtain ⟨⟨rows, hrows⟩, h5⟩ := h4 _ List.mem_cons_self
  obtain ⟨hsrt, ht⟩ := h5 BTA.Props.oblique rfl rows hrows
  have hlen : number rows (fun _ => True) = 2 := by
    rw [number_exact ht (fun _ => True) (fun p => Crosses kfTruth (placeOf BTA.Props.oblique) 1 exSetup.enabled (fun _ _ => True) p) (by
      intro r p hp
      obtain ⟨u, w, hloc, -⟩ := hp.position
      exact ⟨fun _ => ⟨u, w, hloc, rfl, trivial⟩, fun _ => trivial⟩)]
    exact kfTracks (fun _ _ => True) trivial
  have hlen' : rows.length = 2 := by
    unfold number at hlen
    simpa using hlen
  have hsT : SortedBy BTA.Residuals.Track.event (rows.map (kalmanResidualRow 1)) := by
    unfold SortedBy at hsrt ⊢
    exact List.pairwise_map.mpr hsrt
  obtain ⟨⟨e, h⟩, hok⟩ := (BTA.Residuals.Props.C44_outcome exResiduals (rows.map (kalmanResidualRow 1)) hsT 10 (by decide) (by
    intro e
    refine lt_of_le_of_lt (List.length_filter_le _ _) ?_
    rw [List.length_map, hlen']
    decide)).2 (fun l => ⟨rfl, rfl, rfl, rfl⟩) (by
    intro hnil
    have := congrArg List.length hnil
    rw [List.length_map, hlen'] at this
    exact absurd this (by decide))
  have v2 : ValidEdges [(-2 : ℝ), 2] := ⟨le_refl _, by simp⟩
  have vx : ValidEdges [(-5 : ℝ), 15] := ⟨le_refl _, by simp; norm_num⟩
  have vy : ValidEdges [(-1 : ℝ), 1] := ⟨le_refl _, by simp⟩
  have hedges : e = ⟨[-2, 2], [-2, 2], [-5, 15], [-1, 1]⟩ := by
    obtain ⟨-, n, -, he⟩ := BTA.Residuals.residuals_eq exResiduals _ hsT 10 (by decide) e h hok
    exact (Except.ok.inj he).symm
  subst hedges
  obtain ⟨-, -, r3, -, r5⟩ := C227_residuals kfTruth [kfClust 0, kfClust 1] ([kfClust 0, kfClust 1] :: kfOthers) ⟨1, [0, 2, 3], [], false, none⟩ (placeOf BTA.Props.oblique) rows hsrt ht
    exResiduals rfl 10 (by decide) _ h hok v2 v2 vx vy vx vy
  obtain ⟨r3, r4⟩ := r3 rfl rfl
  have h0 : InBin [(-2 : ℝ), 2] 0 0 := ⟨-2, 2, rfl, rfl, by norm_num, .inl (by norm_num)⟩
  have hbin : InBin exResiduals.edges2dX 0 2 ∧ InBin exResiduals.edges2dY 0 0 := by
    refine ⟨⟨-5, 15, rfl, rfl, ?_, .inl ?_⟩, ⟨-1, 1, rfl, rfl, ?_, .inl ?_⟩⟩ <;> norm_num
  have ex : BTA.Purity.edgesX exPurity = [-5, 15] := by
    unfold BTA.Purity.edgesX BTA.Purity.nBins exPurity
    have : ⌊|(15 : ℝ) - -5| / 20⌋.toNat = 1 := by
      have : |(15 : ℝ) - -5| / 20 = 1 := by rw [abs_of_pos (by norm_num)]; norm_num
      rw [this]
      simp
    dsimp only
    rw [this]
    norm_num [BTA.Binning.linspace, List.range_succ]
  have ey : BTA.Purity.edgesY exPurity = [-1, 1] := by
    unfold BTA.Purity.edgesY BTA.Purity.nBins exPurity
    have : ⌊|(1 : ℝ) - -1| / 2⌋.toNat = 1 := by
      have : |(1 : ℝ) - -1| / 2 = 1 := by rw [abs_of_pos (by norm_num)]; norm_num
      rw [this]
      simp
    dsimp only
    rw [this]
    norm_num [BTA.Binning.linspace, List.range_succ]
  obtain ⟨q1, q2⟩ := C228_purity kfTruth [kfClust 0, kfClust 1] ([kfClust 0, kfClust 1] :: kfOthers) ⟨1, [0, 2, 3], [], false, none⟩ (placeOf BTA.Props.oblique) rows hsrt ht
    exPurity (by norm_num [exPurity]) (by norm_num [exPurity]) rfl 2 rfl (by norm_num) rfl rfl (fun p hp _ => kfNotOrigin p hp) 10 (by decide)
  have hone := kfHasSeen (fun u w => InBin (BTA.Purity.edgesX exPurity) 0 u ∧ InBin (BTA.Purity.edgesY exPurity) 0 w) (by rw [ex, ey]; exact hbin)
  obtain ⟨m, hm⟩ := q2 (by
    intro e
    refine lt_of_le_of_lt (List.length_filter_le _ _) ?_
    rw [hlen']
    decide) ⟨0, 0, fun h => absurd (hone.symm.trans h) (by decide), le_trans (show (0 : ℝ) ≤ ((1 : Nat) : ℝ) by norm_num) (le_of_eq (congrArg Nat.cast hone.symm))⟩
  obtain ⟨m1, -, m3⟩ := q1 m hm 0 0
  refine ⟨k, merged, out, tables, rows, _, h, rfl, h1, h2, h3, hrows, hlen', hok, (r3 0 h0).trans (kfHasSeen _ trivial), (r4 0 h0).trans (kfHasSeen _ trivial),
    (r5 0 0).2.trans (kfHasSeen (fun u w => InBin exResiduals.edges2dX 0 u ∧ InBin exResiduals.edges2dY 0 w) hbin), (r5 0 0).1, m, hm, m1.trans hone, ?_⟩
  rw [m3, if_neg]
  exact fun h => absurd (hone.symm.trans h) (by decide)

/-- C228: a hit exactly on its track is not pure with a cut of 0. -/
example (slope : Vec3) : ∃ e, BTA.Purity.dutMaps { exPurity with cut := some 0 }
    ([⟨⟨0, 15, fun _ => some 2, fun _ => some 0⟩, ⟨some 2, some 0, some (slope, 0, 2)⟩, ⟨0, 0, 0⟩⟩].map (kalmanPurityRow 1)) 10 = .error e :=
  C228_no_cut _ (by simp [SortedBy]) 1 _ (by norm_num [exPurity]) (by norm_num [exPurity]) rfl 0 rfl (le_refl _) (by simp [kalmanHit]) 10 (by decide)

end BTA.Chain.Props
