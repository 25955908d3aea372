import Verif.Model.ShapeHist
import Verif.Lemmas.Binning
import Verif.Props.ClusterShape

/-! Properties C74 (histogram of the cluster shapes) and C75 (counts of small cluster shapes). -/

namespace BTA.ShapeHist.Props
open BTA.Binning BTA.Spec BTA.ShapeHist BTA.Cluster BTA.Cluster.Spec

theorem edges_getElem (n i : Nat) (h : i < n) : (intEdges n)[i]? = some (i : ℚ) := by
  simp [intEdges, h]

theorem edges_valid (n : Nat) (h : 2 ≤ n) : ValidEdges (intEdges n) := by
  refine ⟨by simpa [intEdges] using h, ?_⟩
  unfold intEdges
  rw [List.pairwise_map]
  refine List.Pairwise.imp ?_ List.pairwise_lt_range
  intro a b hab
  exact_mod_cast hab

/-- Bin of an integer. -/
theorem bin_int (n i : Nat) (h : 2 ≤ n) (v : Int) :
    binIndex (intEdges n) (v : ℚ) = some i ↔ (v = i ∧ i + 1 < n) ∨ (v = i + 1 ∧ i + 2 = n) := by
  rw [binIndex_iff (edges_valid n h)]
  have hl : (intEdges n).length = n := by simp [intEdges]
  unfold InBin
  rw [hl]
  constructor
  · rintro ⟨lo, hi, h1, h2, h3, h4⟩
    have hin : i + 1 < n := by
      have := (List.getElem?_eq_some_iff.mp h2).1
      omega
    rw [edges_getElem n i (by omega)] at h1
    rw [edges_getElem n (i + 1) hin] at h2
    simp only [Option.some.injEq] at h1 h2
    subst h1 h2
    have h3' : (i : Int) ≤ v := by exact_mod_cast h3
    rcases h4 with h4 | ⟨h4, h5⟩
    · have h4' : v < (i : Int) + 1 := by exact_mod_cast h4
      left; omega
    · have h5' : v = (i : Int) + 1 := by exact_mod_cast h4
      right; omega
  · rintro (⟨rfl, h2⟩ | ⟨rfl, h2⟩)
    · refine ⟨(i : ℚ), ((i + 1 : Nat) : ℚ), edges_getElem n i (by omega), edges_getElem n (i + 1) h2, ?_, .inl ?_⟩
      · simp
      · push_cast; simp
    · refine ⟨(i : ℚ), ((i + 1 : Nat) : ℚ), edges_getElem n i (by omega), edges_getElem n (i + 1) (by omega), ?_, .inr ⟨?_, h2⟩⟩
      · push_cast; simp
      · push_cast; rfl

theorem sum_countP {α : Type} (chunks : List (List α)) (p : α → Bool) : (chunks.map fun c => c.countP p).sum = chunks.flatten.countP p := by
  rw [List.countP_flatten]

/-- C74: the histogram of the cluster shapes gives the number of clusters with each shape below 65534, for every partition into chunks.

Partial: not true for 65534, see `C74_last_bin`. -/
theorem C74_histogram_partial (chunks : List (List Int)) (s : Nat) (hs : s < 65534) :
    shapeHistogram chunks s = chunks.flatten.count (s : Int) := by
  unfold shapeHistogram counts
  rw [sum_countP, List.count]
  apply List.countP_congr
  intro v _
  rw [decide_eq_true_iff, bin_int _ _ (by norm_num), beq_iff_eq]
  omega

/-- C74, negation: the last bin contains the clusters with shape 65535 (all pixels of 4 x 4) as well. -/
theorem C74_last_bin (chunks : List (List Int)) :
    shapeHistogram chunks 65534 = chunks.flatten.count 65534 + chunks.flatten.count 65535 := by
  unfold shapeHistogram counts
  rw [sum_countP]
  generalize chunks.flatten = l
  induction l with
  | nil => rfl
  | cons v r ih =>
    rw [List.countP_cons, ih, List.count_cons, List.count_cons]
    have hd : (decide (binIndex (intEdges (2 ^ 16)) (v : ℚ) = some 65534) = true) ↔ (v = 65534 ∨ v = 65535) := by
      rw [decide_eq_true_iff, bin_int _ _ (by norm_num)]; omega
    simp only [hd, beq_iff_eq]
    split_ifs <;> omega

/-- Two clusters, of 4 x 4 pixels and of one pixel. -/
example : shapeHistogram [[65535], [1]] 65534 = 1 ∧ shapeHistogram [[65535], [1]] 1 = 1 := by
  rw [C74_last_bin, C74_histogram_partial _ 1 (by norm_num)]
  decide

/-- A shape number as `cluster_hits` produces it: -1, or a pixel in the first column and a pixel in the first row. -/
def Produced (v : Int) : Prop :=
  v = -1 ∨ (0 ≤ v ∧ (∃ y < 8, v.toNat.testBit (bit 0 y) = true) ∧ ∃ x < 8, v.toNat.testBit (bit x 0) = true)

/-- The shapes of all clusters are of this kind. -/
theorem produced (hits : List Hit) (indices : List Int) (cl : List Hit) (hd : Denotes hits indices cl) (hne : cl ≠ []) (r : Summary)
    (hr : endOfCluster hits indices = some r) : Produced r.shape := by
  obtain ⟨r', h1, h2, h3⟩ := Cluster.Props.C47_shape hits indices cl hd hne
  rw [hr, Option.some.injEq] at h1
  subst h1
  by_cases hf : Fits cl
  · right
    obtain ⟨h4, -, h5⟩ := h3 hf
    obtain ⟨c0, r0, hc, hr', h6, -⟩ := hf
    have h5 := h5 c0 r0 hc hr'
    refine ⟨h4, ?_, ?_⟩
    · obtain ⟨h, hh, he⟩ := hc.1
      have := h6 h hh
      have := hr'.2 h hh
      exact ⟨h.row - r0, by omega, (h5 0 (by omega) _ (by omega)).mpr ⟨h, hh, by omega, by omega⟩⟩
    · obtain ⟨h, hh, he⟩ := hr'.1
      have := h6 h hh
      have := hc.2 h hh
      exact ⟨h.column - c0, by omega, (h5 _ (by omega) 0 (by omega)).mpr ⟨h, hh, by omega, by omega⟩⟩
  · exact .inl (h2.mpr hf)

theorem relabel_cases (v : Int) : relabel v =
    if v = 1 then 0 else if v = 3 then 1 else if v = 5 then 2 else if v = 13 then 3 else if v = 14 then 4 else
    if v = 7 then 5 else if v = 11 then 6 else if v = 15 then 7 else v := by
  by_cases h1 : v = 1
  · subst h1; rfl
  by_cases h2 : v = 3
  · subst h2; rfl
  by_cases h3 : v = 5
  · subst h3; rfl
  by_cases h4 : v = 13
  · subst h4; rfl
  by_cases h5 : v = 14
  · subst h5; rfl
  by_cases h6 : v = 7
  · subst h6; rfl
  by_cases h7 : v = 11
  · subst h7; rfl
  by_cases h8 : v = 15
  · subst h8; rfl
  simp only [relabel, shapes, relabelLoop, if_neg h1, if_neg h2, if_neg h3, if_neg h4, if_neg h5, if_neg h6, if_neg h7, if_neg h8]

theorem small_produced (v : Int) (h : Produced v) (h0 : 0 ≤ v) (h8 : v ≤ 8) : v ∈ [1, 3, 5, 6, 7] := by
  rcases h with h | ⟨-, h1, h2⟩
  · omega
  · have : ∀ k ≤ 8, (∃ y < 8, k.testBit (bit 0 y) = true) → (∃ x < 8, k.testBit (bit x 0) = true) → k ∈ [1, 3, 5, 6, 7] := by
      decide +kernel
    obtain ⟨k, rfl⟩ := Int.eq_ofNat_of_zero_le h0
    have := this k (by omega) h1 h2
    simp only [List.mem_cons, List.not_mem_nil, or_false] at this ⊢
    omega

theorem label_iff (v : Int) (h : Produced v) (i : Nat) (s : Int) (hs : shapes[i]? = some s) :
    binIndex (intEdges 9) (relabel v : ℚ) = some i ↔ v = s ∨ (v = 6 ∧ s = 11) := by
  have hi : i < 8 := (List.getElem?_eq_some_iff.mp hs).1
  rw [bin_int _ _ (by norm_num), relabel_cases]
  have hsm := small_produced v h
  have hcases : (i = 0 ∧ s = 1) ∨ (i = 1 ∧ s = 3) ∨ (i = 2 ∧ s = 5) ∨ (i = 3 ∧ s = 13) ∨ (i = 4 ∧ s = 14) ∨ (i = 5 ∧ s = 7) ∨
      (i = 6 ∧ s = 11) ∨ (i = 7 ∧ s = 15) := by
    unfold shapes at hs
    match i, hi, hs with
    | 0, _, hs => simp at hs; omega
    | 1, _, hs => simp at hs; omega
    | 2, _, hs => simp at hs; omega
    | 3, _, hs => simp at hs; omega
    | 4, _, hs => simp at hs; omega
    | 5, _, hs => simp at hs; omega
    | 6, _, hs => simp at hs; omega
    | 7, _, hs => simp at hs; omega
  have hv : v < 0 ∨ 8 < v ∨ v = 1 ∨ v = 3 ∨ v = 5 ∨ v = 6 ∨ v = 7 := by
    by_cases h1 : 0 ≤ v
    · by_cases h2 : v ≤ 8
      · have := hsm h1 h2
        simp only [List.mem_cons, List.not_mem_nil, or_false] at this
        omega
      · omega
    · omega
  split_ifs <;> omega

theorem select_all (v : Int) : selectSmall v = true := by
  simp [selectSmall, shapes]

/-- C75: each label counts the clusters with its shape, and label 6 (shape 11) counts the clusters with shape 6 as well. -/
theorem C75_counts (chunks : List (List Int)) (hp : ∀ c ∈ chunks, ∀ v ∈ c, Produced v) (i : Nat) (s : Int) (hs : shapes[i]? = some s) :
    shapeCounts chunks i = chunks.flatten.count s + if s = 11 then chunks.flatten.count 6 else 0 := by
  have hp' : ∀ v ∈ chunks.flatten, Produced v := by
    intro v hv
    obtain ⟨c, hc, hvc⟩ := List.mem_flatten.mp hv
    exact hp c hc v hvc
  have hfil : ∀ c : List Int, c.filter selectSmall = c := fun c => List.filter_eq_self.mpr fun v _ => select_all v
  unfold shapeCounts counts
  simp only [hfil]
  rw [sum_countP]
  revert hp'
  generalize chunks.flatten = l
  intro hp'
  induction l with
  | nil => simp
  | cons v r ih =>
    rw [List.countP_cons, ih fun w hw => hp' w (List.mem_cons_of_mem _ hw), List.count_cons, List.count_cons]
    have hd : (decide (binIndex (intEdges 9) (relabel v : ℚ) = some i) = true) ↔ (v = s ∨ (v = 6 ∧ s = 11)) := by
      rw [decide_eq_true_iff, label_iff v (hp' v List.mem_cons_self) i s hs]
    simp only [hd, beq_iff_eq]
    split_ifs <;> omega

/-- C75: without clusters of two diagonal pixels (shape 6) every label counts the clusters with its shape.

Partial: false otherwise, see `C75_diagonal`. -/
theorem C75_counts_partial (chunks : List (List Int)) (hp : ∀ c ∈ chunks, ∀ v ∈ c, Produced v ∧ v ≠ 6) (i : Nat) (s : Int)
    (hs : shapes[i]? = some s) : shapeCounts chunks i = chunks.flatten.count s := by
  rw [C75_counts chunks (fun c hc v hv => (hp c hc v hv).1) i s hs]
  have h6 : chunks.flatten.count 6 = 0 := by
    rw [List.count_eq_zero]
    intro hm
    obtain ⟨c, hc, hv⟩ := List.mem_flatten.mp hm
    exact (hp c hc 6 hv).2 rfl
  rw [h6]; simp

/-- C75, negation: two hits in diagonal pixels (column, row) and (column + 1, row - 1) are a cluster with shape 6, which is counted as
the cluster of three pixels with shape 11. -/
theorem C75_diagonal : ∃ hits indices r, endOfCluster hits indices = some r ∧
    hits = [⟨5, 9, 0⟩, ⟨6, 8, 0⟩] ∧ r.shape = 6 ∧ shapes[6]? = some 11 ∧ shapeCounts [[r.shape]] 6 = 1 := by
  refine ⟨_, [0, 1], ⟨6, 1, 1, 0⟩, by decide +kernel, rfl, rfl, rfl, ?_⟩
  rw [C75_counts [[6]] (by
    intro c hc v hv
    simp only [List.mem_singleton] at hc
    subst hc
    simp only [List.mem_singleton] at hv
    subst hv
    exact .inr ⟨by decide, ⟨1, by decide, by decide⟩, ⟨1, by decide, by decide⟩⟩) 6 11 rfl]
  decide

/-- Shapes of one pixel, two pixels, a large cluster. -/
example : ∀ v ∈ ([1, 1, 3, -1] : List Int), Produced v ∧ v ≠ 6 := by
  unfold Produced
  decide +kernel

end BTA.ShapeHist.Props
