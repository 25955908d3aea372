import Verif.Lemmas.HitFiles
/-
C126: `check`, `mask` and `cluster` process each file with the DUT and the settings at its place.
-/
namespace BTA.HitFiles.Props
open BTA.HitFiles BTA.HitFiles.Spec

variable {D F M : Type}

/-- C126, `check`, true part: if the DUTs are selected in increasing order (as by default), there is one call for each file, with the DUT,
the output file and the settings at its place. Missing: other orders, see `C126_order`. -/
theorem C126_check_partial (telescope : List D) (inputs : List String) (outputs : Option (List String)) (select : Option (List Int))
    (eventRanges : Setting Nat) (resolutions : Setting (Option (F × F))) (calls : List (CheckCall D F))
    (h : check telescope inputs outputs select eventRanges resolutions = .ok calls) (sel : List Int)
    (hsel : IsSelection telescope.length select sel) (hinc : Increasing telescope.length sel) :
    calls.length = inputs.length ∧ ∀ (k : Nat) s, sel[k]? = some s → ∃ c d f, calls[k]? = some c ∧ telescope[s.toNat]? = some d ∧
      inputs[k]? = some f ∧ c.dut = d ∧ c.input = f ∧ NameAt outputs k c.output ∧ ValueAt eventRanges k c.eventRange ∧
      ValueAt resolutions k c.resolution := by
  unfold check at h
  dsimp only at h
  rw [selection_eq hsel] at h
  obtain ⟨_, h1, h⟩ := bind_ok h
  obtain ⟨_, h2, h⟩ := bind_ok h
  obtain ⟨outs, h3, h⟩ := bind_ok h
  obtain ⟨ranges, h4, h⟩ := bind_ok h
  obtain ⟨res, h5, h⟩ := bind_ok h
  obtain ⟨h6, h7⟩ := loop_ok _ _ h
  obtain ⟨h8, h9⟩ := selected_at telescope sel hinc
  have h2 := checkFiles_ok.mp h2
  refine ⟨by rw [h6, h8, h2], fun k s hs => ?_⟩
  obtain ⟨d, h10, h11⟩ := h9 k s hs
  obtain ⟨c, h12, h13⟩ := h7 k d h11
  rw [Nat.zero_add] at h13
  unfold checkCall at h13
  split at h13
  · next f o e r e1 e2 e3 e4 =>
    injection h13 with h13
    subst h13
    exact ⟨_, d, f, h12, h10, e1, rfl, rfl, (perFile_ok h3).2.2 k o e2, (perDut_ok h4).2.2 k e e3, (perDut_ok h5).2.2 k r e4⟩
  · cases h13

/-- C126, `mask`, true part, as `C126_check_partial`. -/
theorem C126_mask_partial (telescope : List D) (inputs : List String) (outputs : Option (List String)) (select : Option (List Int))
    (names : Setting String) (iterations : Setting (Option Nat)) (thresholds : Setting F) (filterSizes : Setting Nat)
    (disable : Setting (Option M)) (calls : List (MaskCall D F M))
    (h : mask telescope inputs outputs select names iterations thresholds filterSizes disable = .ok calls) (sel : List Int)
    (hsel : IsSelection telescope.length select sel) (hinc : Increasing telescope.length sel) :
    calls.length = inputs.length ∧ ∀ (k : Nat) s, sel[k]? = some s → ∃ c d f, calls[k]? = some c ∧ telescope[s.toNat]? = some d ∧
      inputs[k]? = some f ∧ c.dut = d ∧ c.input = f ∧ NameAt outputs k c.output ∧ ValueAt names k c.name ∧
      ValueAt iterations k c.iterations ∧ ValueAt thresholds k c.threshold ∧ ValueAt filterSizes k c.filterSize ∧
      ValueAt disable k c.disable := by
  unfold mask at h
  dsimp only at h
  rw [selection_eq hsel] at h
  obtain ⟨_, h1, h⟩ := bind_ok h
  obtain ⟨_, h2, h⟩ := bind_ok h
  obtain ⟨outs, h3, h⟩ := bind_ok h
  obtain ⟨ns, a1, h⟩ := bind_ok h
  obtain ⟨its, a2, h⟩ := bind_ok h
  obtain ⟨ts, a3, h⟩ := bind_ok h
  obtain ⟨fs, a4, h⟩ := bind_ok h
  obtain ⟨ds, a5, h⟩ := bind_ok h
  obtain ⟨h6, h7⟩ := loop_ok _ _ h
  obtain ⟨h8, h9⟩ := selected_at telescope sel hinc
  have h2 := checkFiles_ok.mp h2
  refine ⟨by rw [h6, h8, h2], fun k s hs => ?_⟩
  obtain ⟨d, h10, h11⟩ := h9 k s hs
  obtain ⟨c, h12, h13⟩ := h7 k d h11
  rw [Nat.zero_add] at h13
  unfold maskCall at h13
  split at h13
  · next f o n i t z m e1 e2 e3 e4 e5 e6 e7 =>
    injection h13 with h13
    subst h13
    exact ⟨_, d, f, h12, h10, e1, rfl, rfl, (perFile_ok h3).2.2 k o e2, (perDut_ok a1).2.2 k n e3, (perDut_ok a2).2.2 k i e4,
      (perDut_ok a3).2.2 k t e5, (perDut_ok a4).2.2 k z e6, (perDut_ok a5).2.2 k m e7⟩
  · cases h13

/-- The lists of settings. -/
theorem clusterLists_ok {n : Nat} {a : ClusterArgs F} {l : ClusterLists F} (h : clusterLists n a = .ok l) (k : Nat) (s : ClusterSettings F)
    (hs : settingsAt l k = some s) : SettingsAt a k s := by
  unfold clusterLists at h
  obtain ⟨p, h1, h⟩ := bind_ok h
  obtain ⟨lo, h2, h⟩ := bind_ok h
  obtain ⟨hi, h3, h⟩ := bind_ok h
  obtain ⟨c, h4, h⟩ := bind_ok h
  obtain ⟨w, h5, h⟩ := bind_ok h
  obtain ⟨col, h6, h⟩ := bind_ok h
  obtain ⟨row, h7, h⟩ := bind_ok h
  obtain ⟨fr, h8, h⟩ := bind_ok h
  injection h with h
  subst h
  unfold settingsAt at hs
  split at hs
  · next v1 v2 v3 v4 v5 v6 v7 v8 e1 e2 e3 e4 e5 e6 e7 e8 =>
    injection hs with hs
    subst hs
    exact ⟨(perDut_ok h1).2.2 k _ e1, (perDut_ok h2).2.2 k _ e2, (perDut_ok h3).2.2 k _ e3, (perDut_ok h4).2.2 k _ e4,
      (perDut_ok h5).2.2 k _ e5, (perDut_ok h6).2.2 k _ e6, (perDut_ok h7).2.2 k _ e7, (perDut_ok h8).2.2 k _ e8⟩
  · cases hs

/-- C126, `cluster`, true part, as `C126_check_partial`. -/
theorem C126_cluster_partial (telescope : List D) (inputs : List String) (masks outputs : Option (List String)) (select : Option (List Int))
    (a : ClusterArgs F) (calls : List (ClusterCall D F)) (h : cluster telescope inputs masks outputs select a = .ok calls) (sel : List Int)
    (hsel : IsSelection telescope.length select sel) (hinc : Increasing telescope.length sel) :
    calls.length = inputs.length ∧ ∀ (k : Nat) s, sel[k]? = some s → ∃ c d f, calls[k]? = some c ∧ telescope[s.toNat]? = some d ∧
      inputs[k]? = some f ∧ c.dut = d ∧ c.input = f ∧ NameAt outputs k c.output ∧ NameAt masks k c.mask ∧ SettingsAt a k c.settings := by
  unfold cluster at h
  dsimp only at h
  rw [selection_eq hsel] at h
  obtain ⟨_, h1, h⟩ := bind_ok h
  obtain ⟨_, h2, h⟩ := bind_ok h
  obtain ⟨ms, h3, h⟩ := bind_ok h
  obtain ⟨outs, h4, h⟩ := bind_ok h
  obtain ⟨l, h5, h⟩ := bind_ok h
  obtain ⟨h6, h7⟩ := loop_ok _ _ h
  obtain ⟨h8, h9⟩ := selected_at telescope sel hinc
  have h2 := checkFiles_ok.mp h2
  refine ⟨by rw [h6, h8, h2], fun k s hs => ?_⟩
  obtain ⟨d, h10, h11⟩ := h9 k s hs
  obtain ⟨c, h12, h13⟩ := h7 k d h11
  rw [Nat.zero_add] at h13
  unfold clusterCall at h13
  split at h13
  · next f o m st e1 e2 e3 e4 =>
    injection h13 with h13
    subst h13
    exact ⟨_, d, f, h12, h10, e1, rfl, rfl, (perFile_ok h4).2.2 k o e2, (perFile_ok h3).2.2 k m e3, clusterLists_ok h5 k st e4⟩
  · cases h13

theorem some_of_lt {α : Type} {l : List α} {k : Nat} (h : k < l.length) : ∃ v, l[k]? = some v := ⟨l[k], List.getElem?_eq_getElem h⟩

/-- C126: `check` accepts a selection exactly if it is not empty, all DUT numbers are between 0 and the number of DUTs (which itself is not
the number of a DUT), and all lists have the length of the selection. -/
theorem C126_check_accepts (telescope : List D) (inputs : List String) (outputs : Option (List String)) (select : Option (List Int))
    (eventRanges : Setting Nat) (resolutions : Setting (Option (F × F))) (sel : List Int) (hsel : IsSelection telescope.length select sel) :
    (∃ calls, check telescope inputs outputs select eventRanges resolutions = .ok calls) ↔
      sel ≠ [] ∧ (∀ s ∈ sel, 0 ≤ s ∧ s ≤ telescope.length) ∧ inputs.length = sel.length ∧ FitsNames sel.length outputs ∧
      Fits sel.length eventRanges ∧ Fits sel.length resolutions := by
  unfold check
  dsimp only
  rw [selection_eq hsel]
  constructor
  · rintro ⟨calls, h⟩
    obtain ⟨_, h1, h⟩ := bind_ok h
    obtain ⟨_, h2, h⟩ := bind_ok h
    obtain ⟨outs, h3, h⟩ := bind_ok h
    obtain ⟨ranges, h4, h⟩ := bind_ok h
    obtain ⟨res, h5, h⟩ := bind_ok h
    obtain ⟨g1, g2⟩ := checkSelection_ok.mp h1
    exact ⟨g1, g2, checkFiles_ok.mp h2, (perFile_ok h3).1, (perDut_ok h4).1, (perDut_ok h5).1⟩
  · rintro ⟨g1, g2, g3, g4, g5, g6⟩
    obtain ⟨outs, h3⟩ := perFile_fits g4
    obtain ⟨ranges, h4⟩ := perDut_fits g5
    obtain ⟨res, h5⟩ := perDut_fits g6
    rw [ok_bind (checkSelection_ok.mpr ⟨g1, g2⟩), ok_bind (checkFiles_ok.mpr g3), ok_bind h3, ok_bind h4, ok_bind h5]
    refine loop_succeeds _ _ fun d k _ hk => ?_
    rw [Nat.zero_add] at hk
    have hk := lt_of_lt_of_le hk (selected_le telescope sel)
    obtain ⟨f, e1⟩ := some_of_lt (l := inputs) (k := k) (by omega)
    obtain ⟨o, e2⟩ := some_of_lt (l := outs) (k := k) (by rw [(perFile_ok h3).2.1]; exact hk)
    obtain ⟨e, e3⟩ := some_of_lt (l := ranges) (k := k) (by rw [(perDut_ok h4).2.1]; exact hk)
    obtain ⟨r, e4⟩ := some_of_lt (l := res) (k := k) (by rw [(perDut_ok h5).2.1]; exact hk)
    simp [checkCall, e1, e2, e3, e4]

/-- C126: the same for `mask`. -/
theorem C126_mask_accepts (telescope : List D) (inputs : List String) (outputs : Option (List String)) (select : Option (List Int))
    (names : Setting String) (iterations : Setting (Option Nat)) (thresholds : Setting F) (filterSizes : Setting Nat)
    (disable : Setting (Option M)) (sel : List Int) (hsel : IsSelection telescope.length select sel) :
    (∃ calls, mask telescope inputs outputs select names iterations thresholds filterSizes disable = .ok calls) ↔
      sel ≠ [] ∧ (∀ s ∈ sel, 0 ≤ s ∧ s ≤ telescope.length) ∧ inputs.length = sel.length ∧ FitsNames sel.length outputs ∧
      Fits sel.length names ∧ Fits sel.length iterations ∧ Fits sel.length thresholds ∧ Fits sel.length filterSizes ∧
      Fits sel.length disable := by
  unfold mask
  dsimp only
  rw [selection_eq hsel]
  constructor
  · rintro ⟨calls, h⟩
    obtain ⟨_, h1, h⟩ := bind_ok h
    obtain ⟨_, h2, h⟩ := bind_ok h
    obtain ⟨outs, h3, h⟩ := bind_ok h
    obtain ⟨ns, a1, h⟩ := bind_ok h
    obtain ⟨its, a2, h⟩ := bind_ok h
    obtain ⟨ts, a3, h⟩ := bind_ok h
    obtain ⟨fs, a4, h⟩ := bind_ok h
    obtain ⟨ds, a5, h⟩ := bind_ok h
    obtain ⟨g1, g2⟩ := checkSelection_ok.mp h1
    exact ⟨g1, g2, checkFiles_ok.mp h2, (perFile_ok h3).1, (perDut_ok a1).1, (perDut_ok a2).1, (perDut_ok a3).1, (perDut_ok a4).1,
      (perDut_ok a5).1⟩
  · rintro ⟨g1, g2, g3, g4, b1, b2, b3, b4, b5⟩
    obtain ⟨outs, h3⟩ := perFile_fits g4
    obtain ⟨ns, a1⟩ := perDut_fits b1
    obtain ⟨its, a2⟩ := perDut_fits b2
    obtain ⟨ts, a3⟩ := perDut_fits b3
    obtain ⟨fs, a4⟩ := perDut_fits b4
    obtain ⟨ds, a5⟩ := perDut_fits b5
    rw [ok_bind (checkSelection_ok.mpr ⟨g1, g2⟩), ok_bind (checkFiles_ok.mpr g3), ok_bind h3, ok_bind a1, ok_bind a2, ok_bind a3,
      ok_bind a4, ok_bind a5]
    refine loop_succeeds _ _ fun d k _ hk => ?_
    rw [Nat.zero_add] at hk
    have hk := lt_of_lt_of_le hk (selected_le telescope sel)
    obtain ⟨f, e1⟩ := some_of_lt (l := inputs) (k := k) (by omega)
    obtain ⟨o, e2⟩ := some_of_lt (l := outs) (k := k) (by rw [(perFile_ok h3).2.1]; exact hk)
    obtain ⟨v1, c1⟩ := some_of_lt (l := ns) (k := k) (by rw [(perDut_ok a1).2.1]; exact hk)
    obtain ⟨v2, c2⟩ := some_of_lt (l := its) (k := k) (by rw [(perDut_ok a2).2.1]; exact hk)
    obtain ⟨v3, c3⟩ := some_of_lt (l := ts) (k := k) (by rw [(perDut_ok a3).2.1]; exact hk)
    obtain ⟨v4, c4⟩ := some_of_lt (l := fs) (k := k) (by rw [(perDut_ok a4).2.1]; exact hk)
    obtain ⟨v5, c5⟩ := some_of_lt (l := ds) (k := k) (by rw [(perDut_ok a5).2.1]; exact hk)
    simp [maskCall, e1, e2, c1, c2, c3, c4, c5]

/-- C126: the same for `cluster`. -/
theorem C126_cluster_accepts (telescope : List D) (inputs : List String) (masks outputs : Option (List String)) (select : Option (List Int))
    (a : ClusterArgs F) (sel : List Int) (hsel : IsSelection telescope.length select sel) :
    (∃ calls, cluster telescope inputs masks outputs select a = .ok calls) ↔
      sel ≠ [] ∧ (∀ s ∈ sel, 0 ≤ s ∧ s ≤ telescope.length) ∧ inputs.length = sel.length ∧ FitsNames sel.length masks ∧
      FitsNames sel.length outputs ∧ Fits sel.length a.usePositions ∧ Fits sel.length a.minCharge ∧ Fits sel.length a.maxCharge ∧
      Fits sel.length a.chargeCorrection ∧ Fits sel.length a.chargeWeighted ∧ Fits sel.length a.columnDistance ∧
      Fits sel.length a.rowDistance ∧ Fits sel.length a.frameDistance := by
  unfold cluster clusterLists
  dsimp only
  rw [selection_eq hsel]
  constructor
  · rintro ⟨calls, h⟩
    obtain ⟨_, h1, h⟩ := bind_ok h
    obtain ⟨_, h2, h⟩ := bind_ok h
    obtain ⟨ms, h3, h⟩ := bind_ok h
    obtain ⟨outs, h4, h⟩ := bind_ok h
    obtain ⟨l, h5, h⟩ := bind_ok h
    obtain ⟨p, a1, h5⟩ := bind_ok h5
    obtain ⟨lo, a2, h5⟩ := bind_ok h5
    obtain ⟨hi, a3, h5⟩ := bind_ok h5
    obtain ⟨c, a4, h5⟩ := bind_ok h5
    obtain ⟨w, a5, h5⟩ := bind_ok h5
    obtain ⟨col, a6, h5⟩ := bind_ok h5
    obtain ⟨row, a7, h5⟩ := bind_ok h5
    obtain ⟨fr, a8, h5⟩ := bind_ok h5
    obtain ⟨g1, g2⟩ := checkSelection_ok.mp h1
    exact ⟨g1, g2, checkFiles_ok.mp h2, (perFile_ok h3).1, (perFile_ok h4).1, (perDut_ok a1).1, (perDut_ok a2).1, (perDut_ok a3).1,
      (perDut_ok a4).1, (perDut_ok a5).1, (perDut_ok a6).1, (perDut_ok a7).1, (perDut_ok a8).1⟩
  · rintro ⟨g1, g2, g3, g4, g5, b1, b2, b3, b4, b5, b6, b7, b8⟩
    obtain ⟨ms, h3⟩ := perFile_fits g4
    obtain ⟨outs, h4⟩ := perFile_fits g5
    obtain ⟨v1, a1⟩ := perDut_fits b1
    obtain ⟨v2, a2⟩ := perDut_fits b2
    obtain ⟨v3, a3⟩ := perDut_fits b3
    obtain ⟨v4, a4⟩ := perDut_fits b4
    obtain ⟨v5, a5⟩ := perDut_fits b5
    obtain ⟨v6, a6⟩ := perDut_fits b6
    obtain ⟨v7, a7⟩ := perDut_fits b7
    obtain ⟨v8, a8⟩ := perDut_fits b8
    rw [ok_bind (checkSelection_ok.mpr ⟨g1, g2⟩), ok_bind (checkFiles_ok.mpr g3), ok_bind h3, ok_bind h4]
    rw [ok_bind (a := ⟨v1, v2, v3, v4, v5, v6, v7, v8⟩) (by
      rw [ok_bind a1, ok_bind a2, ok_bind a3, ok_bind a4, ok_bind a5, ok_bind a6, ok_bind a7, ok_bind a8])]
    refine loop_succeeds _ _ fun d k _ hk => ?_
    rw [Nat.zero_add] at hk
    have hk := lt_of_lt_of_le hk (selected_le telescope sel)
    obtain ⟨f, e1⟩ := some_of_lt (l := inputs) (k := k) (by omega)
    obtain ⟨m, e2⟩ := some_of_lt (l := ms) (k := k) (by rw [(perFile_ok h3).2.1]; exact hk)
    obtain ⟨o, e3⟩ := some_of_lt (l := outs) (k := k) (by rw [(perFile_ok h4).2.1]; exact hk)
    obtain ⟨w1, c1⟩ := some_of_lt (l := v1) (k := k) (by rw [(perDut_ok a1).2.1]; exact hk)
    obtain ⟨w2, c2⟩ := some_of_lt (l := v2) (k := k) (by rw [(perDut_ok a2).2.1]; exact hk)
    obtain ⟨w3, c3⟩ := some_of_lt (l := v3) (k := k) (by rw [(perDut_ok a3).2.1]; exact hk)
    obtain ⟨w4, c4⟩ := some_of_lt (l := v4) (k := k) (by rw [(perDut_ok a4).2.1]; exact hk)
    obtain ⟨w5, c5⟩ := some_of_lt (l := v5) (k := k) (by rw [(perDut_ok a5).2.1]; exact hk)
    obtain ⟨w6, c6⟩ := some_of_lt (l := v6) (k := k) (by rw [(perDut_ok a6).2.1]; exact hk)
    obtain ⟨w7, c7⟩ := some_of_lt (l := v7) (k := k) (by rw [(perDut_ok a7).2.1]; exact hk)
    obtain ⟨w8, c8⟩ := some_of_lt (l := v8) (k := k) (by rw [(perDut_ok a8).2.1]; exact hk)
    simp [clusterCall, settingsAt, e1, e2, e3, c1, c2, c3, c4, c5, c6, c7, c8]

theorem checkSelection_congr {n : Nat} {sel sel' : List Int} (hl : sel.length = sel'.length) (hm : ∀ s, s ∈ sel ↔ s ∈ sel') :
    checkSelection n sel = checkSelection n sel' := by
  have h0 : sel = [] ↔ sel' = [] := by
    rw [← List.length_eq_zero_iff, ← List.length_eq_zero_iff, hl]
  have h1 : ∀ p : Int → Bool, sel.any p = sel'.any p := by
    intro p
    rw [Bool.eq_iff_iff, List.any_eq_true, List.any_eq_true]
    simp only [hm]
  unfold checkSelection
  rw [h1, h1]
  by_cases h : sel = []
  · rw [if_pos h, if_pos (h0.mp h)]
  · rw [if_neg h, if_neg fun h' => h (h0.mpr h')]

theorem selected_congr {telescope : List D} {sel sel' : List Int} (hm : ∀ s, s ∈ sel ↔ s ∈ sel') : selected telescope sel = selected telescope sel' := by
  unfold selected
  simp only [hm]

theorem checkFiles_congr {sel sel' : List Int} (hl : sel.length = sel'.length) (files : List String) : checkFiles sel files = checkFiles sel' files := by
  unfold checkFiles
  rw [hl]

/-- C126, refuted: the order of the selected DUTs has no effect, so that for every order but the increasing one, files are processed with
the wrong DUT. -/
theorem C126_order (telescope : List D) (inputs : List String) (sel sel' : List Int) (hl : sel.length = sel'.length)
    (hm : ∀ s, s ∈ sel ↔ s ∈ sel') :
    (∀ outputs eventRanges (resolutions : Setting (Option (F × F))), check telescope inputs outputs (some sel) eventRanges resolutions =
      check telescope inputs outputs (some sel') eventRanges resolutions) ∧
    (∀ outputs names iterations (thresholds : Setting F) filterSizes (disable : Setting (Option M)),
      mask telescope inputs outputs (some sel) names iterations thresholds filterSizes disable =
      mask telescope inputs outputs (some sel') names iterations thresholds filterSizes disable) ∧
    (∀ masks outputs (a : ClusterArgs F), cluster telescope inputs masks outputs (some sel) a = cluster telescope inputs masks outputs (some sel') a) := by
  refine ⟨?_, ?_, ?_⟩ <;> intros
  · unfold check
    simp only [selection, checkSelection_congr hl hm, checkFiles_congr hl, selected_congr hm, hl]
  · unfold mask
    simp only [selection, checkSelection_congr hl hm, checkFiles_congr hl, selected_congr hm, hl]
  · unfold cluster
    simp only [selection, checkSelection_congr hl hm, checkFiles_congr hl, selected_congr hm, hl]

/-- C126, refuted, the simplest case: DUT 1 and DUT 0 are selected in this order; the file of DUT 1 is clustered as one of DUT 0. -/
theorem C126_swapped (d0 d1 : D) (f1 f0 : String) (a : ClusterArgs F)
    (calls : List (ClusterCall D F)) (h : cluster [d0, d1] [f1, f0] none none (some [1, 0]) a = .ok calls) :
    ∃ c c', calls = [c, c'] ∧ c.dut = d0 ∧ c.input = f1 ∧ c'.dut = d1 ∧ c'.input = f0 := by
  rw [(C126_order (F := F) (M := F) [d0, d1] [f1, f0] [1, 0] [0, 1] rfl (by simp [or_comm])).2.2] at h
  obtain ⟨h1, h2⟩ := C126_cluster_partial _ _ _ _ _ _ _ h [0, 1] rfl ⟨by simp, by simp⟩
  match calls, h1 with
  | [c, c'], _ =>
    obtain ⟨_, d, f, e1, e2, e3, e4, e5, -⟩ := h2 0 0 rfl
    obtain ⟨_, d', f', g1, g2, g3, g4, g5, -⟩ := h2 1 1 rfl
    simp only [List.getElem?_cons_zero, Option.some.injEq, Int.toNat_zero] at e1 e2 e3
    have g2 : some d1 = some d' := g2
    simp only [List.getElem?_cons_succ, List.getElem?_cons_zero, Option.some.injEq] at g1 g2 g3
    subst e1 g1
    exact ⟨_, _, rfl, e4.trans e2.symm, e5.trans e3.symm, g4.trans g2.symm, g5.trans g3.symm⟩

/-- C126, refuted: if a DUT is selected twice, or the number of DUTs itself is used as the number of a DUT, the call succeeds, and the last
files are silently not processed. -/
theorem C126_dropped (telescope : List D) (inputs : List String) (sel : List Int)
    (hbad : ¬(sel.Nodup ∧ ∀ s ∈ sel, 0 ≤ s ∧ s < telescope.length)) :
    (∀ outputs eventRanges (resolutions : Setting (Option (F × F))) calls,
      check telescope inputs outputs (some sel) eventRanges resolutions = .ok calls → calls.length < inputs.length) ∧
    (∀ outputs names iterations (thresholds : Setting F) filterSizes (disable : Setting (Option M)) calls,
      mask telescope inputs outputs (some sel) names iterations thresholds filterSizes disable = .ok calls → calls.length < inputs.length) ∧
    (∀ masks outputs (a : ClusterArgs F) calls, cluster telescope inputs masks outputs (some sel) a = .ok calls →
      calls.length < inputs.length) := by
  have hlt := selected_lt telescope sel hbad
  refine ⟨fun _ _ _ calls h => ?_, fun _ _ _ _ _ _ calls h => ?_, fun _ _ _ calls h => ?_⟩
  · unfold check at h
    obtain ⟨_, _, h⟩ := bind_ok h
    obtain ⟨_, h2, h⟩ := bind_ok h
    obtain ⟨_, _, h⟩ := bind_ok h
    obtain ⟨_, _, h⟩ := bind_ok h
    obtain ⟨_, _, h⟩ := bind_ok h
    rw [(loop_ok _ _ h).1, checkFiles_ok.mp h2]
    exact hlt
  · unfold mask at h
    obtain ⟨_, _, h⟩ := bind_ok h
    obtain ⟨_, h2, h⟩ := bind_ok h
    obtain ⟨_, _, h⟩ := bind_ok h
    obtain ⟨_, _, h⟩ := bind_ok h
    obtain ⟨_, _, h⟩ := bind_ok h
    obtain ⟨_, _, h⟩ := bind_ok h
    obtain ⟨_, _, h⟩ := bind_ok h
    obtain ⟨_, _, h⟩ := bind_ok h
    rw [(loop_ok _ _ h).1, checkFiles_ok.mp h2]
    exact hlt
  · unfold cluster at h
    obtain ⟨_, _, h⟩ := bind_ok h
    obtain ⟨_, h2, h⟩ := bind_ok h
    obtain ⟨_, _, h⟩ := bind_ok h
    obtain ⟨_, _, h⟩ := bind_ok h
    obtain ⟨_, _, h⟩ := bind_ok h
    rw [(loop_ok _ _ h).1, checkFiles_ok.mp h2]
    exact hlt

/-- Example: three DUTs, two of them selected, with a distance of two columns for the second one. -/
example : cluster ["tel0", "tel1", "dut"] ["a.h5", "c.h5"] none (some ["a_out.h5", "c_out.h5"]) (some [0, 2])
    { columnDistance := .many [1, 2], rowDistance := .one 1, frameDistance := .one 0 : ClusterArgs Nat } =
    .ok [⟨"tel0", "a.h5", some "a_out.h5", none, ⟨none, none, none, none, false, 1, 1, 0⟩⟩,
      ⟨"dut", "c.h5", some "c_out.h5", none, ⟨none, none, none, none, false, 2, 1, 0⟩⟩] := by rfl

/-- C126_dropped: three DUTs, the selection [1, 3]: one file is not processed. -/
example : (check (F := Nat) ["tel0", "tel1", "dut"] ["a.h5", "b.h5"] none (some [1, 3]) (.one 1) (.one none)).map List.length = .ok 1 := by rfl

end BTA.HitFiles.Props
