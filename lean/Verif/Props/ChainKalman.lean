import Verif.Model.ChainKalman
import Verif.Spec.ChainKalman
import Verif.Props.ChainEff
import Verif.Props.KalmanExact
/-
C217: the complete chain with the Kalman filter: each stored track is a true track, and the measured efficiency is the true efficiency.
-/
namespace BTA.Chain.Props
open BTA.Chain BTA.MergedColumns BTA.Line BTA.Dut BTA.Geo BTA.Spec BTA.Merge BTA.FindFile
open BTA.Fit (Sampling DutCfg)
open BTA.Efficiency (Setup Output)
open BTA.Efficiency.Spec (Used Close Matched TrackIn ratio Correct)

theorem atLocal_placeOf (P : BTA.Kalman.Plane) (q : Vec3) (u w : ℝ) : AtLocal (placeOf P) q u w ↔ q = BTA.Spec.globalPoint P ![u, w, 0] := by
  have : (![P.pos 0, P.pos 1, P.pos 2] : Vec3) = P.pos := by ext i; fin_cases i <;> rfl
  unfold AtLocal placeOf BTA.Spec.globalPoint BTA.Kalman.Plane.rot
  dsimp only
  rw [this]

theorem crosses_placeOf (P : BTA.Kalman.Plane) (v : Vec3)
    (h : ¬ ∃ u w : ℝ, v = (rotationMatrix (placeOf P).alpha (placeOf P).beta (placeOf P).gamma).mulVec ![u, w, 0]) : BTA.Spec.Crosses P v := by
  intro h0
  apply h
  have e : P.rot.mulVec (P.rot.transpose.mulVec v) = v := by
    rw [Matrix.mulVec_mulVec]
    unfold BTA.Kalman.Plane.rot
    rw [rotationMatrix_orth', Matrix.one_mulVec]
  refine ⟨P.rot.transpose.mulVec v 0, P.rot.transpose.mulVec v 1, ?_⟩
  have h2 : P.rot.transpose.mulVec v 2 = 0 := by
    rw [← h0]
    unfold planeNormalOf
    simp [Geo.dot, Matrix.mulVec, dotProduct, Fin.sum_univ_succ, Matrix.transpose_apply]
    ring
  have h3 : P.rot.transpose.mulVec v = ![P.rot.transpose.mulVec v 0, P.rot.transpose.mulVec v 1, 0] := by
    ext i
    fin_cases i <;> simp [h2]
  conv_lhs => rw [← e, h3]
  rfl

theorem kalmanHits_get (n : Nat) (err : BTA.Fit.Cand ℝ → Nat → ℝ × ℝ) (row : Row (Value ℝ)) (d : Nat) (hd : d < n) :
    (kalmanHits n err (fitCand row))[d]? = some ((candOf row d).map fun h => ⟨h.x, h.y, (err (fitCand row) d).1, (err (fitCand row) d).2⟩) := by
  unfold kalmanHits
  rw [List.getElem?_map, List.getElem?_range hd]
  unfold fitCand candOf
  dsimp only [Option.map_some]
  cases hitOf d row.cols <;> rfl

open Classical in
/-- The fit of a candidate of a straight track. -/
theorem kalman_row (k : KalmanConfig) (hk : Usable k) (err : BTA.Fit.Cand ℝ → Nat → ℝ × ℝ) (herr : ∀ c d, (err c d).1 ≠ 0 ∧ (err c d).2 ≠ 0) (beam : Option Alignment)
    (duts : List (Bool × Pixels ℝ)) (hn : k.planes.length = duts.length) (clusters : Nat → List (Clust ℝ)) (hcl : ∀ d, duts.length ≤ d → clusters d = []) (f : Nat) (t : Truth)
    (hI : Straight beam duts (k.planes.map placeOf) clusters f t) (r : Nat) (hr : r < t.m) (F : Finset Nat) (row : Row (Value ℝ))
    (hc : ∀ d dut, duts[d]? = some dut → candOf row d = ((clusters d)[t.own r d]?).map (clusterHit dut))
    (htwo : 2 ≤ (F.filter fun d => t.own r d < (clusters d).length).card) :
    ∃ fit, kalmanTrack k err F (fitCand row) = .ok fit ∧ ∀ (d : Nat) (P : BTA.Kalman.Plane), k.planes[d]? = some P → ∃ u w slope,
      kalmanEst k err F (fitCand row) d = ⟨some u, some w, some (slope, 0, 2 * (F.filter fun d => t.own r d < (clusters d).length).card - 4)⟩ ∧
      slope 2 = 1 ∧ Describes P ![u, w, slope 0, slope 1] (t.p r) (t.v r) := by
  have hplace : ∀ (d : Nat) (P : BTA.Kalman.Plane), k.planes[d]? = some P → (k.planes.map placeOf)[d]? = some (placeOf P) := by
    intro d P h
    rw [List.getElem?_map, h]
    rfl
  have hmemP : ∀ P ∈ k.planes, BTA.Spec.Crosses P (t.v r) := by
    intro P hP
    obtain ⟨d, hd⟩ := List.getElem?_of_mem hP
    exact crosses_placeOf P _ (hI.crosses d _ (hplace d P hd) r hr).2
  have hget := kalmanHits_get k.planes.length err row
  have hhit : ∀ (d : Nat) (P : BTA.Kalman.Plane) (hit : BTA.Kalman.Hit), k.planes[d]? = some P → (kalmanHits k.planes.length err (fitCand row))[d]? = some (some hit) →
      BTA.Spec.globalPoint P ![hit.x, hit.y, 0] = t.at' r d ∧ hit.xErr ≠ 0 ∧ hit.yErr ≠ 0 := by
    intro d P hit hP hh
    have hlt := (List.getElem?_eq_some_iff.mp hP).1
    have hdut := List.getElem?_eq_getElem (l := duts) (i := d) (by omega)
    rw [hget d hlt, hc d _ hdut] at hh
    have hh1 := Option.some.inj hh
    rw [Option.map_eq_some_iff] at hh1
    obtain ⟨h, hh2, rfl⟩ := hh1
    rw [Option.map_eq_some_iff] at hh2
    obtain ⟨cl, hcl', rfl⟩ := hh2
    refine ⟨?_, herr _ _⟩
    exact ((atLocal_placeOf P _ _ _).mp (hI.measured d _ _ (hplace d P hP) hdut r hr cl hcl')).symm
  have hsome : ∀ d, d < k.planes.length → ((kalmanHits k.planes.length err (fitCand row)).getD d none).isSome = decide (t.own r d < (clusters d).length) := by
    intro d hd
    rw [List.getD_eq_getElem?_getD, hget d hd, hc d _ (List.getElem?_eq_getElem (show d < duts.length by omega))]
    by_cases h : t.own r d < (clusters d).length
    · simp [h]
    · simp [h]
  have hlt : ∀ d, t.own r d < (clusters d).length → d < k.planes.length := by
    intro d h
    by_contra hd
    rw [hcl d (by omega)] at h
    simp at h
  let fd := (List.range k.planes.length).filter fun d => decide (d ∈ F)
  have hfd : ∀ d, d ∈ fd ↔ d < k.planes.length ∧ d ∈ F := by
    intro d
    simp [fd]
  have hcount : (fd.countP fun d => ((kalmanHits k.planes.length err (fitCand row)).getD d none).isSome) = (F.filter fun d => t.own r d < (clusters d).length).card := by
    rw [List.countP_eq_length_filter, ← List.toFinset_card_of_nodup ((List.nodup_range.filter _).filter _)]
    congr 1
    ext d
    rw [List.mem_toFinset, List.mem_filter, hfd, Finset.mem_filter]
    constructor
    · rintro ⟨⟨h1, h2⟩, h3⟩
      rw [hsome d h1, decide_eq_true_eq] at h3
      exact ⟨h2, h3⟩
    · rintro ⟨h1, h2⟩
      have := hlt d h2
      rw [hsome d this, decide_eq_true_eq]
      exact ⟨⟨this, h1⟩, h2⟩
  obtain ⟨d, hd1, d', hd2, hne⟩ := Finset.one_lt_card.mp (lt_of_lt_of_le one_lt_two htwo)
  rw [Finset.mem_filter] at hd1 hd2
  have hgetS : ∀ d, t.own r d < (clusters d).length → ∃ P h, k.planes[d]? = some P ∧ (kalmanHits k.planes.length err (fitCand row))[d]? = some (some h) := by
    intro d h
    have hl := hlt d h
    have := hsome d hl
    rw [List.getD_eq_getElem?_getD] at this
    have hs : ((kalmanHits k.planes.length err (fitCand row))[d]?.getD none).isSome = true := by rw [this]; simpa using h
    cases hg : (kalmanHits k.planes.length err (fitCand row))[d]? with
    | none => rw [hg] at hs; cases hs
    | some o =>
      cases o with
      | none => rw [hg] at hs; cases hs
      | some h => exact ⟨_, h, List.getElem?_eq_getElem hl, rfl⟩
  obtain ⟨P, h, eP, eh⟩ := hgetS d hd1.2
  obtain ⟨Q, h', eQ, eh'⟩ := hgetS d' hd2.2
  obtain ⟨fit, hfit, h1, h2, h3, h4⟩ := BTA.Props.C216_exact k.fx k.argsort k.svd k.planes [] (List.replicate k.planes.length 1)
    (kalmanHits k.planes.length err (fitCand row)) fd k.energy k.mass (t.p r) (t.v r) hk.sorts hk.singular
    (by rw [List.append_nil]; exact hk.order) (by rw [List.append_nil]; exact hk.beam) (by rw [List.append_nil]; exact hmemP) (by rw [List.append_nil]; exact hk.material)
    (by simp) (by
      intro a ha
      rw [List.eq_of_mem_replicate ha]
      exact one_pos) (by
      intro d P hit _ hP hh
      rw [List.append_nil] at hP
      unfold BTA.Props.HasError
      cases hres : P.resolution with
      | none => exact (hhit d P hit hP hh).2
      | some r => exact hk.resolution P (List.mem_of_getElem? hP) r hres)
    (fun d hd => ((hfd d).mp hd).1) (fun d P hit _ hP hh => ⟨t.l r d, (hhit d P hit hP hh).1⟩)
    ⟨d, (hfd d).mpr ⟨hlt d hd1.2, hd1.1⟩, d', (hfd d').mpr ⟨hlt d' hd2.2, hd2.1⟩, P, Q, h, h', eP, eQ, eh, eh', by
      rw [(hhit d P h eP eh).1, (hhit d' Q h' eQ eh').1]
      intro heq
      unfold Truth.at' at heq
      have h0 : (t.l r d - t.l r d') • t.v r = 0 := by
        rw [sub_smul, sub_eq_zero]
        exact add_left_cancel heq
      rcases smul_eq_zero.mp h0 with h0 | h0
      · exact hI.different d (by rw [List.length_map]; exact hlt d hd1.2) d' (by rw [List.length_map]; exact hlt d' hd2.2) hne r hr (sub_eq_zero.mp h0)
      · have := hmemP P (List.mem_of_getElem? eP)
        rw [h0] at this
        exact this (by simp [Geo.dot])⟩
  refine ⟨fit, hfit, ?_⟩
  intro d P hP
  have hdlt := (List.getElem?_eq_some_iff.mp hP).1
  obtain ⟨s, hs⟩ := BTA.Props.lookup_isSome fit.planes d (by rw [h1]; exact List.mem_range.mpr hdlt)
  obtain ⟨⟨P', hP', hdesc⟩, -⟩ := h2 _ (BTA.Props.lookup_some_mem fit.planes d s hs)
  dsimp only at hP' hdesc
  rw [hP] at hP'
  obtain rfl := Option.some.inj hP'
  refine ⟨s.x 0, s.x 1, ![s.x 2, s.x 3, 1], ?_, rfl, ?_⟩
  · unfold kalmanEst kalmanTrack
    rw [hfit]
    dsimp only
    rw [hs]
    dsimp only
    rw [h3, h4, hcount]
  · have : (![s.x 0, s.x 1, (![s.x 2, s.x 3, 1] : Vec3) 0, (![s.x 2, s.x 3, 1] : Vec3) 1] : BTA.Kalman.State) = s.x := by
      ext i
      fin_cases i <;> rfl
    rw [this]
    exact hdesc

/-- The hit flag decides if the track is stored. -/
theorem stored_takenKalman (T0 : List (Clust ℝ)) (others : List (List (Clust ℝ))) (truth : Int → Truth) (c : DutCfg) (row : Row (Value ℝ)) (p : Int × Nat)
    (hb : ∀ d, (row.flag.toNat.testBit d = true ↔ HasCluster truth (T0 :: others) d p)) : Stored true c row.flag.toNat ↔ TakenKalman truth (T0 :: others) c p := by
  classical
  unfold Stored TakenKalman hitsIn
  have : ((ownFit c).filter fun d => row.flag.toNat.testBit d = true) = (ownFit c).filter fun d => HasCluster truth (T0 :: others) d p :=
    Finset.filter_congr fun d _ => hb d
  rw [this]
  simp only [hb]
  simp

open Classical in
/-- C217: the complete chain `merge_cluster_data`, `find_tracks`, `fit_tracks` (Kalman filter), `calculate_efficiency`. -/
theorem C217_efficiency (duts : List (Bool × Pixels ℝ)) (k : KalmanConfig) (hk : Usable k) (err : BTA.Fit.Cand ℝ → Nat → ℝ × ℝ) (herr : ∀ c d, (err c d).1 ≠ 0 ∧ (err c d).2 ≠ 0)
    (beam : Option Alignment) (hb : SamePlanes beam (k.planes.map placeOf)) (hn : k.planes.length = duts.length) (h10 : duts.length ≤ 10) (zs extrap : List Nat)
    (hz : zs.Perm (List.range k.planes.length)) (f : Nat) (ds : List Nat) (hf : zs = f :: ds) (S : Sampling) (cs : Nat) (hcs : 0 < cs) (T0 : List (Clust ℝ)) (others : List (List (Clust ℝ)))
    (hd : duts.length = others.length + 1) (hs0 : SortedBy Clust.ev T0) (hs : ∀ T ∈ others, SortedBy Clust.ev T)
    (hm : ∀ T ∈ T0 :: others, ∀ e, BTA.Spec.multiplicity Clust.ev T e < cs)
    (truth : Int → Truth)
    (hI : ∀ e, (∃ x ∈ T0, e ≤ x.ev) → Straight beam duts (k.planes.map placeOf) (eventOf (T0 :: others) e) f (truth e))
    (planes : List (BTA.Fit.Plane ℝ)) (hcut : ∀ P ∈ planes, ValidCuts P) (S' : Sampling) (cs1 : Nat) (hcs1 : cs ≤ cs1) (cfgs : List DutCfg) (hnd : (cfgs.map DutCfg.dut).Nodup)
    (hfit : ∀ c ∈ cfgs, c.fitDuts.Nodup) (hreq : ∀ c ∈ cfgs, 2 ≤ required c ∧ required c ≤ (ownFit c).card) :
    ∃ merged out tables, mergeClusterData Clust.ev T0 others cs = .ok merged ∧
      findFile (telescopeSetting beam (k.planes.map placeOf) zs extrap) S 0 cs (merged.map (mergedRow duts)) = some (out, none) ∧
      BTA.Fit.fitTracks (kalmanEst k err) planes false true S' 0 cs1 (out.map fitCand) cfgs = .ok tables ∧
      ∀ c ∈ cfgs, (∀ row ∈ out, Fitted true c row.flag.toNat → ∃ fit, kalmanTrack k err (ownFit c) (fitCand row) = .ok fit) ∧
        (∃ rows, (c.dut, rows) ∈ tables) ∧
        ∀ P, k.planes[c.dut]? = some P → ∀ rows, (c.dut, rows) ∈ tables →
          rows.length = Set.ncard {p | IsTrack truth T0 p ∧ TakenKalman truth (T0 :: others) c p} ∧
          (∀ r ∈ rows, ∃ p u w slope, IsTrack truth T0 p ∧ TakenKalman truth (T0 :: others) c p ∧ r.cand.event = p.1 ∧
            r.est = ⟨some u, some w, some (slope, 0, 2 * ((ownFit c).filter fun d => HasCluster truth (T0 :: others) d p).card - 4)⟩ ∧ TrueTrack truth P p u w slope) ∧
          ∀ (other : BTA.Fit.Row ℝ (Option (Vec3 × ℝ × Int)) → BTA.Efficiency.Row ℝ) (s : Setup ℝ), s.offset = (0, 0) → ValidEdges s.edgesX → ValidEdges s.edgesY →
            (∀ x, s.cut.1 = some x → 0 ≤ x) → (∀ y, s.cut.2 = some y → 0 ≤ y) →
            let tracks := fun R => Set.ncard {p | IsTrack truth T0 p ∧ TakenKalman truth (T0 :: others) c p ∧ Crosses truth (placeOf P) c.dut s.enabled R p}
            let seen := fun R => Set.ncard {p | IsTrack truth T0 p ∧ TakenKalman truth (T0 :: others) c p ∧ Crosses truth (placeOf P) c.dut s.enabled R p ∧
              HasCluster truth (T0 :: others) c.dut p}
            let inside := fun u w => ∃ i j, InBin s.edgesX i u ∧ InBin s.edgesY j w
            ∀ cs2 > 0,
              (∀ (rest : List (Setup ℝ × List (BTA.Efficiency.Row ℝ))) (os : List (Output ℝ)), BTA.Efficiency.efficiency cs2 ((s, rows.map (effRow c.dut other)) :: rest) = .ok os →
                ∃ o, os.head? = some o ∧
                  (∀ i j, let bin := fun u w => InBin s.edgesX i u ∧ InBin s.edgesY j w
                    o.tracks (i, j) = tracks bin ∧ o.hits.withHit (i, j) = seen bin ∧ o.efficiency (i, j) = ratio (seen bin) (tracks bin)) ∧
                  o.mean = (seen inside : ℝ) / (tracks inside : ℝ)) ∧
              (s.regions = [] → Set.ncard {p | IsTrack truth T0 p} < cs2 → tracks (fun _ _ => True) = tracks inside →
                (∃ i j, let bin := fun u w => InBin s.edgesX i u ∧ InBin s.edgesY j w
                  s.minimumTrackDensity ≤ tracks bin ∧ seen bin ≠ 0) → ∃ o, BTA.Efficiency.efficiency cs2 [(s, rows.map (effRow c.dut other))] = .ok [o]) := by
  have hlenA : (k.planes.map placeOf).length = k.planes.length := List.length_map _
  have hn' : (k.planes.map placeOf).length = duts.length := by omega
  have hz' : zs.Perm (List.range (k.planes.map placeOf).length) := by rw [hlenA]; exact hz
  obtain ⟨merged, out, h1, h2, hlast, hev0⟩ := C185_candidates duts (k.planes.map placeOf) beam hb hn' h10 zs extrap hz' f ds hf S cs hcs T0 others hd hs0 hs hm
  have hev := fun e he => hev0 e (truth e) he (hI e he)
  obtain ⟨hsort, hmult, -⟩ := out_facts duts (k.planes.map placeOf) beam hn' h10 zs extrap hz' S cs hcs T0 others hd hs0 hs hm merged out h1 h2
  have hT : SortedBy BTA.Fit.Cand.event (out.map fitCand) := by
    unfold SortedBy at hsort ⊢
    exact List.pairwise_map.mpr hsort
  have hflag : ∀ t ∈ out.map fitCand, t.flag < 2 ^ 32 := by
    intro t ht
    obtain ⟨row, -, rfl⟩ := List.mem_map.mp ht
    exact row.flag.isLt
  have hmul : ∀ e, BTA.Spec.multiplicity BTA.Fit.Cand.event (out.map fitCand) e < cs1 := by
    intro e
    refine lt_of_lt_of_le ?_ hcs1
    have : BTA.Spec.multiplicity BTA.Fit.Cand.event (out.map fitCand) e = BTA.Spec.multiplicity Row.ev out e := by
      unfold BTA.Spec.multiplicity
      rw [List.filter_map, List.length_map]
      rfl
    rw [this]
    exact hmult e
  obtain ⟨tables, h3, h4⟩ := BTA.Fit.Props.C24_tracks_table (kalmanEst k err) planes hcut true S' cs1 (out.map fitCand) hT hflag hmul cfgs hnd hfit hreq
  have hempty : ∀ e d, duts.length ≤ d → eventOf (T0 :: others) e d = [] := by
    intro e d hd'
    unfold eventOf
    rw [List.getD_eq_getElem?_getD, List.getElem?_eq_none (by simp only [List.length_cons]; omega)]
    rfl
  -- the rows and the true tracks
  have hbit : ∀ (row : Row (Value ℝ)) (p : Int × Nat), row ∈ out → row.ev = p.1 → (out.filter fun x => decide (x.ev = p.1))[p.2]? = some row → ∀ d,
      (row.flag.toNat.testBit d = true ↔ HasCluster truth (T0 :: others) d p) := by
    rintro row ⟨e, r⟩ hrow he hr d
    dsimp only at he hr
    subst he
    have hlast' := hlast row hrow
    by_cases hd32 : d < 32
    · rw [← BitVec.getLsbD]
      exact C185_flag duts (k.planes.map placeOf) beam hb hn' h10 zs extrap hz' f ds hf S cs hcs T0 others hd hs0 hs hm merged out h1 h2 row.ev (truth row.ev) hlast' (hI _ hlast') r row hr d hd32
    · have e1 : row.flag.toNat.testBit d = false := by
        rw [← BitVec.getLsbD]
        exact BitVec.getLsbD_of_ge _ _ (by omega)
      rw [e1]
      unfold HasCluster
      rw [hempty _ d (by omega)]
      simp
  have hrank : ∀ row ∈ out, ∃ n : Nat, (out.filter fun x => decide (x.ev = row.ev))[n]? = some row := by
    intro row hrow
    exact List.getElem?_of_mem (List.mem_filter.mpr ⟨hrow, by simp⟩)
  have hmain : ∀ (F : Finset Nat) (row : Row (Value ℝ)) (n : Nat), row ∈ out → (out.filter fun x => decide (x.ev = row.ev))[n]? = some row → 2 ≤ hitsIn row.flag.toNat F →
      n < (truth row.ev).m ∧ ∃ fit, kalmanTrack k err F (fitCand row) = .ok fit ∧ ∀ (d : Nat) (P : BTA.Kalman.Plane), k.planes[d]? = some P → ∃ u w slope,
        kalmanEst k err F (fitCand row) d = ⟨some u, some w, some (slope, 0, 2 * (F.filter fun d => HasCluster truth (T0 :: others) d (row.ev, n)).card - 4)⟩ ∧
        TrueTrack truth P (row.ev, n) u w slope := by
    intro F row n hrow hr htwo
    have hlast' := hlast row hrow
    obtain ⟨g1, g2⟩ := hev row.ev hlast'
    have hnm : n < (truth row.ev).m := by rw [← g1]; exact (List.getElem?_eq_some_iff.mp hr).1
    refine ⟨hnm, ?_⟩
    have hcard : (F.filter fun d => HasCluster truth (T0 :: others) d (row.ev, n)).card =
        (F.filter fun d => (truth row.ev).own n d < (eventOf (T0 :: others) row.ev d).length).card := by
      congr 1
      ext d
      simp only [Finset.mem_filter]
      rfl
    obtain ⟨fit, hfit', hall⟩ := kalman_row k hk err herr beam duts hn (eventOf (T0 :: others) row.ev) (hempty _) f (truth row.ev) (hI _ hlast') n hnm F row (g2 n row hr) (by
      rw [← hcard]
      refine le_trans htwo (le_of_eq ?_)
      unfold hitsIn
      congr 1
      ext d
      simp only [Finset.mem_filter]
      exact and_congr_right fun _ => hbit row (row.ev, n) hrow rfl hr d)
    rw [hcard]
    exact ⟨fit, hfit', hall⟩
  refine ⟨merged, out, tables, h1, h2, h3, fun c hc => ⟨?_, ?_, ?_⟩⟩
  · intro row hrow hfitted
    obtain ⟨n, hr⟩ := hrank row hrow
    obtain ⟨-, fit, hfit', -⟩ := hmain (ownFit c) row n hrow hr (by
      unfold Fitted at hfitted
      rw [if_pos rfl] at hfitted
      exact le_trans (le_trans (by decide) (le_max_left 3 _)) hfitted)
    exact ⟨fit, hfit'⟩
  · obtain ⟨rows, hrows, -⟩ := h4 c hc
    exact ⟨rows, hrows⟩
  intro P hP rows hrows
  have hdl : c.dut < duts.length := by
    rw [← hn]
    exact (List.getElem?_eq_some_iff.mp hP).1
  have htaken : ∀ (row : Row (Value ℝ)) (p : Int × Nat), row ∈ out → row.ev = p.1 → (out.filter fun x => decide (x.ev = p.1))[p.2]? = some row →
      (Stored true c row.flag.toNat ↔ TakenKalman truth (T0 :: others) c p) := fun row p a1 a2 a3 => stored_takenKalman T0 others truth c row p (hbit row p a1 a2 a3)
  -- a stored row of the table
  have hstate : ∀ (row : Row (Value ℝ)) (p : Int × Nat), row ∈ out → row.ev = p.1 → (out.filter fun x => decide (x.ev = p.1))[p.2]? = some row →
      Stored true c row.flag.toNat → p.2 < (truth p.1).m ∧ ∃ u w slope, kalmanEst k err (ownFit c) (fitCand row) c.dut =
        ⟨some u, some w, some (slope, 0, 2 * ((ownFit c).filter fun d => HasCluster truth (T0 :: others) d p).card - 4)⟩ ∧ TrueTrack truth P p u w slope := by
    rintro row ⟨e, n⟩ hrow he hr hst
    dsimp only at he hr ⊢
    subst he
    obtain ⟨hnm, fit, -, hall⟩ := hmain (ownFit c) row n hrow hr (le_trans (hreq c hc).1 hst.2.1)
    exact ⟨hnm, hall c.dut P hP⟩
  have hrel : List.Forall₂ (fun (row : Row (Value ℝ)) (r : BTA.Fit.Row ℝ (Option (Vec3 × ℝ × Int))) => r.cand = fitCand row ∧ r.est = kalmanEst k err (ownFit c) (fitCand row) c.dut)
      (out.filter fun row => decide (Stored true c row.flag.toNat)) rows := by
    have h57 := BTA.Fit.Props.C57_flags (kalmanEst k err) planes hcut true S' cs1 (by omega) (out.map fitCand) hT hflag cfgs hfit tables h3 c hc rows hrows
    have e1 : (out.filter fun row => decide (Stored true c row.flag.toNat)) = (out.zipIdx.filter fun p => decide (Stored true c p.1.flag.toNat)).map Prod.fst := by
      conv_lhs => rw [← List.zipIdx_map_fst 0 out]
      rw [List.filter_map]
      rfl
    have e2 : ((out.map fitCand).zipIdx.filter fun p => decide (Stored true c p.1.flag)) =
        (out.zipIdx.filter fun p => decide (Stored true c p.1.flag.toNat)).map (Prod.map fitCand id) := by
      rw [List.zipIdx_map, List.filter_map]
      rfl
    rw [e2, List.forall₂_map_left_iff] at h57
    rw [e1, List.forall₂_map_left_iff]
    exact h57.imp fun p r h => ⟨h.1, h.2.1⟩
  refine ⟨?_, ?_, ?_⟩
  · -- number of rows
    obtain ⟨L, hL1, hL2, hL3⟩ := exists_ranks Row.ev out
    rw [← hrel.length_eq]
    have s1 : (out.filter fun row => decide (Stored true c row.flag.toNat)).length = number out fun row => Stored true c row.flag.toNat := by
      unfold number
      congr 2
      funext row
      congr 1
    have s2 : (number out fun row => Stored true c row.flag.toNat) = number L fun p => TakenKalman truth (T0 :: others) c p :=
      number_forall₂ hL3 fun row p hmem hr => htaken row p hmem hr.1 hr.2
    rw [s1, s2, number_nodup L hL1]
    congr 1
    ext p
    rw [Set.mem_setOf_eq, Set.mem_setOf_eq]
    refine and_congr_left fun _ => ?_
    rw [hL2]
    unfold IsTrack
    by_cases he : ∃ x ∈ T0, p.1 ≤ x.ev
    · rw [(hev p.1 he).1]
      exact ⟨fun h => ⟨he, h⟩, fun h => h.2⟩
    · have : (out.filter fun x => decide (x.ev = p.1)) = [] := by
        rw [List.filter_eq_nil_iff]
        intro row hrow
        rw [decide_eq_true_eq]
        intro h
        exact he (h ▸ hlast row hrow)
      rw [this]
      simp [he]
  · intro r hr
    obtain ⟨i, hi⟩ := List.getElem?_of_mem hr
    have hil : i < (out.filter fun row => decide (Stored true c row.flag.toNat)).length := by
      rw [hrel.length_eq]
      exact (List.getElem?_eq_some_iff.mp hi).1
    have hrow := List.getElem_mem hil
    have hrr := hrel.get hil (by rw [← hrel.length_eq]; exact hil)
    rw [List.get_eq_getElem, List.get_eq_getElem] at hrr
    have hri : rows[i]'(by rw [← hrel.length_eq]; exact hil) = r := (List.getElem?_eq_some_iff.mp hi).2
    simp only [hri] at hrr
    obtain ⟨hmem, hst⟩ := List.mem_filter.mp hrow
    have hst := of_decide_eq_true hst
    obtain ⟨n, hn2⟩ := hrank _ hmem
    obtain ⟨hnm, u, w, slope, he, htt⟩ := hstate _ (_, n) hmem rfl hn2 hst
    exact ⟨(_, n), u, w, slope, ⟨hlast _ hmem, hnm⟩, (htaken _ (_, n) hmem rfl hn2).mp hst, by rw [hrr.1]; rfl, by rw [hrr.2, he], htt⟩
  intro other s hoff hex hey hcx hcy tracks seen inside cs2 hcs2
  have hpoint : ∀ (row : Row (Value ℝ)) (p : Int × Nat) (r : BTA.Fit.Row ℝ (Option (Vec3 × ℝ × Int))), row ∈ out → row.ev = p.1 → (out.filter fun x => decide (x.ev = p.1))[p.2]? = some row →
      Stored true c row.flag.toNat → r.cand = fitCand row → r.est = kalmanEst k err (ownFit c) (fitCand row) c.dut →
      ∃ u w, AtLocal (placeOf P) ((truth p.1).at' p.2 c.dut) u w ∧ (effRow c.dut other r).ix = u ∧ (effRow c.dut other r).iy = w ∧
        (Matched s (effRow c.dut other r) ↔ HasCluster truth (T0 :: others) c.dut p) := by
    rintro row ⟨e, n⟩ r hrow he hr hst hcand hest
    obtain ⟨hnm, u, w, slope, hest', htt⟩ := hstate row (e, n) hrow he hr hst
    dsimp only at he hr hnm ⊢
    subst he
    have hlast' := hlast row hrow
    obtain ⟨-, hcl⟩ := hev row.ev hlast'
    have ha : (k.planes.map placeOf)[c.dut]? = some (placeOf P) := by rw [List.getElem?_map, hP]; rfl
    obtain ⟨⟨u', w', hloc'⟩, -⟩ := (hI row.ev hlast').crosses c.dut _ ha n hnm
    have hobs := BTA.Props.hit_of_state P _ ⟨u', w', 0, 0⟩ _ _ htt.2 ⟨(truth row.ev).l n c.dut, ((atLocal_placeOf P _ _ _).mp hloc').symm⟩
    have hu : u = u' := by
      have := congrFun hobs 0
      simpa [BTA.Kalman.obsMat, Matrix.mulVec, dotProduct, Fin.sum_univ_succ] using this
    have hw : w = w' := by
      have := congrFun hobs 1
      simpa [BTA.Kalman.obsMat, Matrix.mulVec, dotProduct, Fin.sum_univ_succ] using this
    subst hu hw
    rw [hest'] at hest
    have hix : (effRow c.dut other r).ix = u := by
      show r.est.x.getD 0 = _
      rw [hest]
      rfl
    have hiy : (effRow c.dut other r).iy = w := by
      show r.est.y.getD 0 = _
      rw [hest]
      rfl
    refine ⟨u, w, hloc', hix, hiy, ?_⟩
    unfold Matched HasCluster
    rw [effRow_hit _ _ _ row hcand, hcl n row hr c.dut _ (List.getElem?_eq_getElem hdl)]
    dsimp only
    constructor
    · rintro ⟨h, hh, -⟩
      rw [Option.map_eq_some_iff] at hh
      obtain ⟨x, hx, -⟩ := hh
      rw [Option.map_eq_some_iff] at hx
      obtain ⟨cl, hcl', -⟩ := hx
      exact (List.getElem?_eq_some_iff.mp hcl').1
    · intro hlt
      have hmeas := (hI row.ev hlast').measured c.dut _ _ ha (List.getElem?_eq_getElem hdl) n hnm _ (List.getElem?_eq_getElem hlt)
      obtain ⟨e0, e1⟩ := atLocal_inj _ _ _ _ _ _ hloc' hmeas
      rw [List.getElem?_eq_getElem hlt]
      refine ⟨_, rfl, ?_⟩
      have hp0 : BTA.Efficiency.Spec.posX s (effRow c.dut other r) = u := by
        unfold BTA.Efficiency.Spec.posX
        rw [hix, hoff, add_zero]
      have hp1 : BTA.Efficiency.Spec.posY s (effRow c.dut other r) = w := by
        unfold BTA.Efficiency.Spec.posY
        rw [hiy, hoff, add_zero]
      rw [hp0, hp1, e0, e1]
      dsimp only
      rw [sub_self, sub_self]
      exact close_zero s hcx hcy
  have hused : ∀ (R : ℝ → ℝ → Prop) (row : Row (Value ℝ)) (p : Int × Nat) (r : BTA.Fit.Row ℝ (Option (Vec3 × ℝ × Int))), row ∈ out → row.ev = p.1 →
      (out.filter fun x => decide (x.ev = p.1))[p.2]? = some row → Stored true c row.flag.toNat → r.cand = fitCand row → r.est = kalmanEst k err (ownFit c) (fitCand row) c.dut →
      ((Used s (effRow c.dut other r) ∧ R (BTA.Efficiency.Spec.posX s (effRow c.dut other r)) (BTA.Efficiency.Spec.posY s (effRow c.dut other r))) ↔
        Crosses truth (placeOf P) c.dut s.enabled R p) ∧ (Matched s (effRow c.dut other r) ↔ HasCluster truth (T0 :: others) c.dut p) := by
    intro R row p r hrow he hr hst hcand hest
    obtain ⟨u, w, hloc, hix, hiy, hmt⟩ := hpoint row p r hrow he hr hst hcand hest
    refine ⟨?_, hmt⟩
    have hp0 : BTA.Efficiency.Spec.posX s (effRow c.dut other r) = u := by
      unfold BTA.Efficiency.Spec.posX
      rw [hix, hoff, add_zero]
    have hp1 : BTA.Efficiency.Spec.posY s (effRow c.dut other r) = w := by
      unfold BTA.Efficiency.Spec.posY
      rw [hiy, hoff, add_zero]
    unfold Used Crosses
    rw [hp0, hp1]
    constructor
    · exact fun h => ⟨u, w, hloc, h.1, h.2⟩
    · rintro ⟨u', w', hloc', h⟩
      obtain ⟨rfl, rfl⟩ := atLocal_inj _ _ _ _ _ _ hloc hloc'
      exact h
  obtain ⟨q1, q2⟩ := efficiency_core (kalmanEst k err) T0 others truth out hsort hlast (fun e he => (hev e he).1) true c (TakenKalman truth (T0 :: others) c) htaken planes hcut S' cs1
    (by omega) cfgs hfit tables h3 hc (placeOf P) rows hrows other s hex hey
    (fun _ => True) (fun row p r a1 a2 a3 a4 a5 a6 => ⟨fun R _ => (hused R row p r a1 a2 a3 a4 a5 a6).1, (hused (fun _ _ => True) row p r a1 a2 a3 a4 a5 a6).2⟩) cs2 hcs2
  refine ⟨fun rest os hos => ?_, fun hreg hlen hall ⟨i, j, hbin⟩ => q2 hreg hlen trivial trivial hall ⟨i, j, trivial, hbin⟩⟩
  obtain ⟨o, ho, ho1, ho2⟩ := q1 rest os hos
  exact ⟨o, ho, fun i j => ho1 i j trivial, ho2 trivial⟩

/-! ### Example: four sensors, DUT 1 is tilted. Two events with one track at x = 2 parallel to the z axis; DUT 1 has seen the track of event 0 only. -/

noncomputable def kfPlanes : List BTA.Kalman.Plane := [BTA.Props.flat 0, BTA.Props.oblique, BTA.Props.flat 20, BTA.Props.flat 30]

def kfZ (d : Nat) : ℝ := if d = 0 then 0 else if d = 1 then 5 else if d = 2 then 20 else 30

theorem kfPlane (d : Nat) (P : BTA.Kalman.Plane) (h : kfPlanes[d]? = some P) :
    d < 4 ∧ P.pos = ![0, 0, kfZ d] ∧ BTA.Spec.globalPoint P ![2, 0, 0] = ![2, 0, kfZ d] ∧ planeNormalOf P 2 ≠ 0 ∧ planeNormalOf P 0 = 0 ∧ 1e-8 < P.budget ∧
      ∀ r, P.resolution = some r → r.1 ≠ 0 ∧ r.2 ≠ 0 := by
  have hflat : ∀ z, BTA.Spec.globalPoint (BTA.Props.flat z) ![2, 0, 0] = ![2, 0, z] := by
    intro z
    unfold BTA.Spec.globalPoint
    rw [BTA.Props.flat_rot, Matrix.one_mulVec]
    ext i
    fin_cases i <;> simp [BTA.Props.flat]
  have hobl : BTA.Spec.globalPoint BTA.Props.oblique ![2, 0, 0] = ![2, 0, 5] := by
    unfold BTA.Spec.globalPoint BTA.Kalman.Plane.rot BTA.Props.oblique
    ext i
    fin_cases i <;> simp [rotationMatrix_eq, Matrix.mulVec, dotProduct, Fin.sum_univ_succ]
  rcases d with _ | _ | _ | _ | d <;> simp [kfPlanes] at h <;> subst h
  · refine ⟨by decide, ?_, ?_, ?_, ?_, ?_, ?_⟩
    · simp [BTA.Props.flat, kfZ]
    · rw [hflat]; simp [kfZ]
    · rw [BTA.Props.flat_normal]; simp
    · rw [BTA.Props.flat_normal]; simp
    · norm_num [BTA.Props.flat]
    · intro r hr; simp [BTA.Props.flat] at hr; subst hr; norm_num
  · refine ⟨by decide, ?_, ?_, ?_, ?_, ?_, ?_⟩
    · simp [BTA.Props.oblique, kfZ]
    · rw [hobl]; simp [kfZ]
    · rw [BTA.Props.oblique_normal]; simpa using Real.cos_one_pos.ne'
    · rw [BTA.Props.oblique_normal]; simp
    · norm_num [BTA.Props.oblique]
    · intro r hr; simp [BTA.Props.oblique] at hr
  · refine ⟨by decide, ?_, ?_, ?_, ?_, ?_, ?_⟩
    · simp [BTA.Props.flat, kfZ]
    · rw [hflat]; simp [kfZ]
    · rw [BTA.Props.flat_normal]; simp
    · rw [BTA.Props.flat_normal]; simp
    · norm_num [BTA.Props.flat]
    · intro r hr; simp [BTA.Props.flat] at hr; subst hr; norm_num
  · refine ⟨by decide, ?_, ?_, ?_, ?_, ?_, ?_⟩
    · simp [BTA.Props.flat, kfZ]
    · rw [hflat]; simp [kfZ]
    · rw [BTA.Props.flat_normal]; simp
    · rw [BTA.Props.flat_normal]; simp
    · norm_num [BTA.Props.flat]
    · intro r hr; simp [BTA.Props.flat] at hr; subst hr; norm_num

theorem kfCrosses (P : BTA.Kalman.Plane) (hP : P ∈ kfPlanes) : BTA.Spec.Crosses P ![0, 0, 1] := by
  obtain ⟨d, hd⟩ := List.getElem?_of_mem hP
  obtain ⟨-, -, -, h, -⟩ := kfPlane d P hd
  unfold BTA.Spec.Crosses
  simpa [Geo.dot] using h

theorem kfOrder : InBeamOrder kfPlanes := by
  have key : ∀ (i : Nat) (P : BTA.Kalman.Plane) (z : ℝ), kfPlanes[i]? = some P → OnPlane P.pos (planeNormalOf P) ![0, 0, z] → z = kfZ i := by
    intro i P z hP h
    obtain ⟨-, h1, -, h2, -⟩ := kfPlane i P hP
    unfold OnPlane at h
    rw [h1] at h
    simp [Geo.dot, h2] at h
    linarith
  intro i j P Q z z' hij hP hQ h1 h2
  rw [key i P z hP h1, key j Q z' hQ h2]
  have hj := (kfPlane j Q hQ).1
  have hi : i = 0 ∨ i = 1 ∨ i = 2 := by omega
  have hj' : j = 1 ∨ j = 2 ∨ j = 3 := by omega
  rcases hi with rfl | rfl | rfl <;> rcases hj' with rfl | rfl | rfl <;> first | omega | norm_num [kfZ]

theorem kfZ_inj (d d' : Nat) (hd : d < 4) (hd' : d' < 4) (h : kfZ d = kfZ d') : d = d' := by
  rcases (by omega : d = 0 ∨ d = 1 ∨ d = 2 ∨ d = 3) with rfl | rfl | rfl | rfl <;>
    rcases (by omega : d' = 0 ∨ d' = 1 ∨ d' = 2 ∨ d' = 3) with rfl | rfl | rfl | rfl <;> first | rfl | (norm_num [kfZ] at h)

noncomputable def kfClust (e : Int) : Clust ℝ := ⟨e, 0, 0, 0, 0, 2, 0, 1, 1, 1, 0, 1, 0, 1, 1⟩

noncomputable def kfOthers : List (List (Clust ℝ)) := [[kfClust 0], [kfClust 0, kfClust 1], [kfClust 0, kfClust 1]]

def kfDuts : List (Bool × Pixels ℝ) := List.replicate 4 (true, ⟨1, 1, 1, 1⟩)

noncomputable def kfTruth (e : Int) : Truth := ⟨if e = 0 ∨ e = 1 then 1 else 0, fun _ => ![2, 0, 0], fun _ => ![0, 0, 1], fun _ d => kfZ d, fun _ _ => 0⟩

theorem kfEvent (e : Int) (d : Nat) : eventOf ([kfClust 0, kfClust 1] :: kfOthers) e d =
    if (e = 0 ∧ d < 4) ∨ (e = 1 ∧ d < 4 ∧ d ≠ 1) then [kfClust e] else [] := by
  unfold eventOf
  by_cases h0 : e = 0
  · subst h0
    rcases d with _ | _ | _ | _ | d <;> simp [kfOthers, kfClust]
  · by_cases h1 : e = 1
    · subst h1
      rcases d with _ | _ | _ | _ | d <;> simp [kfOthers, kfClust]
    · have a0 : ¬ 0 = e := fun h => h0 h.symm
      have a1 : ¬ 1 = e := fun h => h1 h.symm
      rcases d with _ | _ | _ | _ | d <;> simp [kfOthers, kfClust, h0, h1, a0, a1]

theorem kfStraight (e : Int) : Straight none kfDuts (kfPlanes.map placeOf) (eventOf ([kfClust 0, kfClust 1] :: kfOthers) e) 0 (kfTruth e) := by
  have hals : ∀ (d : Nat) (a : Alignment), (kfPlanes.map placeOf)[d]? = some a → ∃ P, kfPlanes[d]? = some P ∧ a = placeOf P := by
    intro d a h
    rw [List.getElem?_map, Option.map_eq_some_iff] at h
    obtain ⟨P, hP, rfl⟩ := h
    exact ⟨P, hP, rfl⟩
  have hlen : (kfPlanes.map placeOf).length = 4 := rfl
  have hat : ∀ (r d : Nat), (kfTruth e).at' r d = ![2, 0, kfZ d] := by
    intro r d
    ext i
    fin_cases i <;> simp [Truth.at', kfTruth]
  have hm : (kfTruth e).m = if e = 0 ∨ e = 1 then 1 else 0 := rfl
  have hm1 : ∀ r, r < (kfTruth e).m → r = 0 ∧ (e = 0 ∨ e = 1) := by
    intro r hr
    rw [hm] at hr
    by_cases h : e = 0 ∨ e = 1
    · rw [if_pos h] at hr; exact ⟨by omega, h⟩
    · rw [if_neg h] at hr; omega
  have hloc : ∀ (r d : Nat) (P : BTA.Kalman.Plane), kfPlanes[d]? = some P → AtLocal (placeOf P) ((kfTruth e).at' r d) 2 0 := by
    intro r d P hP
    rw [atLocal_placeOf, hat]
    exact (kfPlane d P hP).2.2.1.symm
  refine ⟨⟨?_, ?_⟩, ?_, ?_, ?_, ?_, ?_, ?_, 1, one_pos, ?_⟩
  · rw [kfEvent, hm]
    by_cases h0 : e = 0
    · simp [h0]
    · by_cases h1 : e = 1 <;> simp [h0, h1]
  · intro r hr
    rw [(hm1 r hr).1]
    rfl
  · intro d _
    rw [kfEvent, hm]
    by_cases h : e = 0 ∨ e = 1
    · rw [if_pos h]
      split <;> simp
    · push Not at h
      simp [h]
  · intro d _ r hr
    exact Nat.lt_of_le_of_lt (Nat.zero_le _) hr
  · intro d _ r hr s hs _
    rw [(hm1 r hr).1, (hm1 s hs).1]
  · intro d a ha r hr
    obtain ⟨P, hP, rfl⟩ := hals d a ha
    refine ⟨⟨2, 0, hloc r d P hP⟩, ?_⟩
    rintro ⟨u, w, h⟩
    have hc := kfCrosses P (List.mem_of_getElem? hP)
    apply hc
    have : (![0, 0, 1] : Vec3) = P.rot.mulVec ![u, w, 0] := h
    rw [this]
    have ho : P.rot.transpose * P.rot = 1 := rotationMatrix_orth _ _ _
    have hdot : ∀ a b : Vec3, Geo.dot a b = a ⬝ᵥ b := fun a b => by simp [Geo.dot, dotProduct, Fin.sum_univ_succ]; ring
    unfold planeNormalOf
    rw [hdot, Matrix.dotProduct_mulVec, Matrix.vecMul_mulVec, ← Matrix.dotProduct_mulVec] 
    rw [ho, Matrix.one_mulVec]
    simp [dotProduct, Fin.sum_univ_succ]
  · intro d hd d' hd' hne r _ h
    exact hne (kfZ_inj d d' (by omega) (by omega) h)
  · intro d a dut ha hdut r hr c hc
    obtain ⟨P, hP, rfl⟩ := hals d a ha
    have hx : (clusterHit dut c).x = 2 ∧ (clusterHit dut c).y = 0 := by
      have hdt : dut = (true, ⟨1, 1, 1, 1⟩) := List.eq_of_mem_replicate (List.mem_of_getElem? hdut)
      rw [kfEvent] at hc
      have hcc : c = kfClust e := by
        split at hc
        · have : [kfClust e][0]? = some c := hc
          simpa using this.symm
        · simp at hc
      subst hdt hcc
      simp [clusterHit, kfClust]
    rw [hx.1, hx.2]
    exact hloc r d P hP
  · intro d _ _ r hr
    refine ⟨by simp [beamPos, hat, sideways], ?_⟩
    intro s hs hrs
    exact absurd ((hm1 r hr).1.trans (hm1 s hs).1.symm) hrs

theorem kfIsTrack (p : Int × Nat) : IsTrack kfTruth [kfClust 0, kfClust 1] p ↔ p = (0, 0) ∨ p = (1, 0) := by
  obtain ⟨e, r⟩ := p
  unfold IsTrack kfTruth
  dsimp only
  by_cases h : e = 0 ∨ e = 1
  · rw [if_pos h]
    simp only [Prod.mk.injEq]
    constructor
    · rintro ⟨-, hr⟩
      rcases h with rfl | rfl
      · exact .inl ⟨rfl, by omega⟩
      · exact .inr ⟨rfl, by omega⟩
    · rintro (⟨rfl, rfl⟩ | ⟨rfl, rfl⟩)
      · exact ⟨⟨kfClust 1, by simp, by simp [kfClust]⟩, by decide⟩
      · exact ⟨⟨kfClust 1, by simp, by simp [kfClust]⟩, by decide⟩
  · rw [if_neg h]
    simp only [Prod.mk.injEq]
    constructor
    · rintro ⟨-, hr⟩; omega
    · rintro (⟨rfl, -⟩ | ⟨rfl, -⟩) <;> simp at h

theorem kfHas (e : Int) (r d : Nat) : HasCluster kfTruth ([kfClust 0, kfClust 1] :: kfOthers) d (e, r) ↔ (e = 0 ∧ d < 4) ∨ (e = 1 ∧ d < 4 ∧ d ≠ 1) := by
  unfold HasCluster
  dsimp only
  rw [kfEvent]
  by_cases h : (e = 0 ∧ d < 4) ∨ (e = 1 ∧ d < 4 ∧ d ≠ 1)
  · rw [if_pos h]
    simp [h, kfTruth]
  · rw [if_neg h]
    simp [h]

theorem kfTaken (e : Int) (h : e = 0 ∨ e = 1) : TakenKalman kfTruth ([kfClust 0, kfClust 1] :: kfOthers) ⟨1, [0, 2, 3], [], false, none⟩ (e, 0) := by
  classical
  unfold TakenKalman
  have : ((ownFit ⟨1, [0, 2, 3], [], false, none⟩).filter fun d => HasCluster kfTruth ([kfClust 0, kfClust 1] :: kfOthers) d (e, 0)) =
      ownFit ⟨1, [0, 2, 3], [], false, none⟩ := by
    rw [Finset.filter_eq_self]
    intro d hd
    have hd' : d = 0 ∨ d = 2 ∨ d = 3 := by simpa [ownFit] using hd
    rw [kfHas]
    rcases h with rfl | rfl <;> rcases hd' with rfl | rfl | rfl <;> simp
  rw [this]
  exact ⟨by simp, by decide, by decide⟩

theorem kfLocal (e : Int) (P : ℝ → ℝ → Prop) : Crosses kfTruth (placeOf BTA.Props.oblique) 1 (fun _ _ => true) P (e, 0) ↔ P 2 0 := by
  have hloc : AtLocal (placeOf BTA.Props.oblique) ((kfTruth e).at' 0 1) 2 0 := by
    rw [atLocal_placeOf, (kfPlane 1 BTA.Props.oblique rfl).2.2.1]
    ext i
    fin_cases i <;> simp [Truth.at', kfTruth]
  constructor
  · rintro ⟨u, w, h, -, hP⟩
    obtain ⟨rfl, rfl⟩ := atLocal_inj _ _ _ _ _ _ h hloc
    exact hP
  · intro h
    exact ⟨_, _, hloc, rfl, h⟩

theorem kfTracks (P : ℝ → ℝ → Prop) (h : P 2 0) :
    Set.ncard {p | IsTrack kfTruth [kfClust 0, kfClust 1] p ∧ TakenKalman kfTruth ([kfClust 0, kfClust 1] :: kfOthers) ⟨1, [0, 2, 3], [], false, none⟩ p ∧
      Crosses kfTruth (placeOf BTA.Props.oblique) 1 exSetup.enabled P p} = 2 := by
  have : {p | IsTrack kfTruth [kfClust 0, kfClust 1] p ∧ TakenKalman kfTruth ([kfClust 0, kfClust 1] :: kfOthers) ⟨1, [0, 2, 3], [], false, none⟩ p ∧
      Crosses kfTruth (placeOf BTA.Props.oblique) 1 exSetup.enabled P p} = {((0 : Int), 0), (1, 0)} := by
    ext p
    simp only [Set.mem_setOf_eq, Set.mem_insert_iff, Set.mem_singleton_iff]
    rw [kfIsTrack]
    constructor
    · exact fun h => h.1
    · intro hp
      refine ⟨hp, ?_⟩
      rcases hp with rfl | rfl
      · exact ⟨kfTaken 0 (.inl rfl), (kfLocal 0 P).mpr h⟩
      · exact ⟨kfTaken 1 (.inr rfl), (kfLocal 1 P).mpr h⟩
  rw [this, Set.ncard_pair (by decide)]

theorem kfSeen (P : ℝ → ℝ → Prop) (h : P 2 0) :
    Set.ncard {p | IsTrack kfTruth [kfClust 0, kfClust 1] p ∧ TakenKalman kfTruth ([kfClust 0, kfClust 1] :: kfOthers) ⟨1, [0, 2, 3], [], false, none⟩ p ∧
      Crosses kfTruth (placeOf BTA.Props.oblique) 1 exSetup.enabled P p ∧ HasCluster kfTruth ([kfClust 0, kfClust 1] :: kfOthers) 1 p} = 1 := by
  have : {p | IsTrack kfTruth [kfClust 0, kfClust 1] p ∧ TakenKalman kfTruth ([kfClust 0, kfClust 1] :: kfOthers) ⟨1, [0, 2, 3], [], false, none⟩ p ∧
      Crosses kfTruth (placeOf BTA.Props.oblique) 1 exSetup.enabled P p ∧ HasCluster kfTruth ([kfClust 0, kfClust 1] :: kfOthers) 1 p} = {((0 : Int), 0)} := by
    ext p
    simp only [Set.mem_setOf_eq, Set.mem_singleton_iff]
    rw [kfIsTrack]
    constructor
    · rintro ⟨rfl | rfl, -, -, h⟩
      · rfl
      · rw [kfHas] at h
        simp at h
    · rintro rfl
      exact ⟨.inl rfl, kfTaken 0 (.inl rfl), (kfLocal 0 P).mpr h, by rw [kfHas]; simp⟩
  rw [this, Set.ncard_singleton]

/-- C217: the tracks are fitted with the Kalman filter in DUT 0, 2 and 3; the efficiency of DUT 1 is 50 %. -/
example (S S' : Sampling) (fx : BTA.Kalman.Fixer) (other : BTA.Fit.Row ℝ (Option (Vec3 × ℝ × Int)) → BTA.Efficiency.Row ℝ) :
    ∃ (k : KalmanConfig) (merged : _) (out : List (Row (Value ℝ))) (tables : _) (rows : List (BTA.Fit.Row ℝ (Option (Vec3 × ℝ × Int)))) (o : Output ℝ),
    k.planes = kfPlanes ∧ mergeClusterData Clust.ev [kfClust 0, kfClust 1] kfOthers 10 = .ok merged ∧
    findFile (telescopeSetting none (k.planes.map placeOf) [0, 1, 2, 3] [0, 1, 2, 3]) S 0 10 (merged.map (mergedRow kfDuts)) = some (out, none) ∧
    BTA.Fit.fitTracks (kalmanEst k fun _ _ => (1, 1)) [] false true S' 0 10 (out.map fitCand) [⟨1, [0, 2, 3], [], false, none⟩] = .ok tables ∧ (1, rows) ∈ tables ∧
    rows.length = 2 ∧ BTA.Efficiency.efficiency 10 [(exSetup, rows.map (effRow 1 other))] = .ok [o] ∧ o.efficiency (0, 0) = some 50 ∧ o.mean = 1 / 2 := by
  obtain ⟨svd, hsvd⟩ := BTA.AlignTel.exists_svd
  obtain ⟨argsort, hsort⟩ := BTA.Props.exists_argsort
  let k : KalmanConfig := ⟨kfPlanes, 5000, 0.511, fx, argsort, svd⟩
  have hk : Usable k := by
    refine ⟨hsort, hsvd, kfOrder, kfCrosses, ?_, ?_⟩
    · intro P hP
      obtain ⟨d, hd⟩ := List.getElem?_of_mem hP
      exact (kfPlane d P hd).2.2.2.2.2.1
    · intro P hP
      obtain ⟨d, hd⟩ := List.getElem?_of_mem hP
      exact (kfPlane d P hd).2.2.2.2.2.2
  have hex : ValidEdges exSetup.edgesX := ⟨le_refl _, by simp [exSetup] <;> norm_num⟩
  have hey : ValidEdges exSetup.edgesY := ⟨le_refl _, by simp [exSetup] <;> norm_num⟩
  obtain ⟨merged, out, tables, h1, h2, h3, h4⟩ := C217_efficiency kfDuts k hk (fun _ _ => (1, 1)) (fun _ _ => ⟨one_ne_zero, one_ne_zero⟩) none (fun _ _ _ => Iff.rfl) rfl (by decide)
    [0, 1, 2, 3] [0, 1, 2, 3] (show [0, 1, 2, 3].Perm (List.range 4) by decide) 0 [1, 2, 3] rfl S 10 (by decide) [kfClust 0, kfClust 1] kfOthers rfl
    (by simp [SortedBy, kfClust]) (by
      intro T hT
      simp only [kfOthers, List.mem_cons, List.not_mem_nil, or_false] at hT
      rcases hT with rfl | rfl | rfl <;> simp [SortedBy, kfClust]) (by
      intro T h e
      refine lt_of_le_of_lt (List.length_filter_le _ _) ?_
      simp only [kfOthers, List.mem_cons, List.not_mem_nil, or_false] at h
      rcases h with rfl | rfl | rfl | rfl <;> decide) kfTruth (fun e _ => kfStraight e) [] (fun P hP => by cases hP) S' 10 (le_refl _) [⟨1, [0, 2, 3], [], false, none⟩]
    (by decide) (by decide) (by decide)
  obtain ⟨-, ⟨rows, hrows⟩, h5⟩ := h4 _ List.mem_cons_self
  obtain ⟨hlen, -, h5⟩ := h5 BTA.Props.oblique rfl rows hrows
  obtain ⟨h6, h7⟩ := h5 other exSetup rfl hex hey (fun x hx => by cases hx) (fun y hy => by obtain rfl := Option.some.inj hy; norm_num) 10 (by decide)
  have hbin : InBin exSetup.edgesX 0 2 ∧ InBin exSetup.edgesY 0 0 := by
    refine ⟨⟨-5, 15, rfl, rfl, ?_, .inl ?_⟩, ⟨-1, 1, rfl, rfl, ?_, .inl ?_⟩⟩ <;> norm_num
  have n0 := kfTracks (fun _ _ => True) trivial
  have n1 := kfTracks (fun u w => ∃ i j, InBin exSetup.edgesX i u ∧ InBin exSetup.edgesY j w) ⟨0, 0, hbin⟩
  have n2 := kfTracks (fun u w => InBin exSetup.edgesX 0 u ∧ InBin exSetup.edgesY 0 w) hbin
  have k1 := kfSeen (fun u w => ∃ i j, InBin exSetup.edgesX i u ∧ InBin exSetup.edgesY j w) ⟨0, 0, hbin⟩
  have k2 := kfSeen (fun u w => InBin exSetup.edgesX 0 u ∧ InBin exSetup.edgesY 0 w) hbin
  have hall : {p | IsTrack kfTruth [kfClust 0, kfClust 1] p} = {((0 : Int), 0), (1, 0)} := by
    ext p
    exact kfIsTrack p
  obtain ⟨o, ho⟩ := h7 rfl (by
    rw [hall, Set.ncard_pair (by decide)]
    decide) (n0.trans n1.symm) ⟨0, 0, by
      refine ⟨?_, ?_⟩
      · exact le_trans (show (1 : ℝ) ≤ ((2 : Nat) : ℝ) by norm_num) (le_of_eq (congrArg Nat.cast n2.symm))
      · exact fun h => absurd (k2.symm.trans h) (by decide)⟩
  obtain ⟨o', ho', h8, h9⟩ := h6 [] [o] ho
  obtain rfl := Option.some.inj ho'
  refine ⟨k, merged, out, tables, rows, o, rfl, h1, h2, h3, hrows, ?_, ho, ?_, ?_⟩
  · rw [hlen]
    have : {p | IsTrack kfTruth [kfClust 0, kfClust 1] p ∧ TakenKalman kfTruth ([kfClust 0, kfClust 1] :: kfOthers) ⟨1, [0, 2, 3], [], false, none⟩ p} = {((0 : Int), 0), (1, 0)} := by
      ext p
      simp only [Set.mem_setOf_eq, Set.mem_insert_iff, Set.mem_singleton_iff]
      rw [kfIsTrack]
      constructor
      · exact fun h => h.1
      · intro hp
        refine ⟨hp, ?_⟩
        rcases hp with rfl | rfl
        · exact kfTaken 0 (.inl rfl)
        · exact kfTaken 1 (.inr rfl)
    rw [this, Set.ncard_pair (by decide)]
  · exact (h8 0 0).2.2.trans ((congrArg₂ ratio k2 n2).trans (by unfold ratio; norm_num))
  · exact h9.trans ((congrArg₂ (fun x y : Nat => (x : ℝ) / (y : ℝ)) k1 n1).trans (by norm_num))

end BTA.Chain.Props
