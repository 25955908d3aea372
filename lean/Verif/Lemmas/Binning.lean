import Verif.Model.Binning
import Verif.Spec.Statistics
import Mathlib.Algebra.Order.Field.Basic
import Mathlib.Tactic.FieldSimp
import Mathlib.Tactic.Ring
import Mathlib.Tactic.Linarith

/-! Lemmas on binned statistics. -/

namespace BTA.Binning
open BTA.Spec

variable {K ρ σ β : Type}

section
variable [DecidableEq β]

theorem counts_append (bin : ρ → Option β) (l m : List ρ) (b : β) :
    counts bin (l ++ m) b = counts bin l b + counts bin m b := by
  simp [counts]

theorem counts_eq_length (bin : ρ → Option β) (l : List ρ) (b : β) :
    counts bin l b = (l.filter fun r => decide (bin r = some b)).length := by
  simp [counts, List.countP_eq_length_filter]

theorem counts_eq_zero_iff (bin : ρ → Option β) (l : List ρ) (b : β) :
    counts bin l b = 0 ↔ (l.filter fun r => decide (bin r = some b)) = [] := by
  rw [counts_eq_length, List.length_eq_zero_iff]

variable [Field K] [LinearOrder K] [IsStrictOrderedRing K]

omit [LinearOrder K] [IsStrictOrderedRing K] in
theorem binMean_eq (bin : ρ → Option β) (val : ρ → K) (l : List ρ) (b : β) :
    binMean bin val l b * (counts bin l b : K) = ((l.filter fun r => decide (bin r = some b)).map val).sum ∨
    (counts bin l b : K) = 0 := by
  by_cases h : (counts bin l b : K) = 0
  · exact .inr h
  left
  unfold binMean
  have hne : (l.filter fun r => decide (bin r = some b)) ≠ [] := by
    intro h0; apply h; rw [counts_eq_length, h0]; simp
  simp only [hne, if_false]
  rw [← counts_eq_length]
  field_simp

theorem binMean_mul (bin : ρ → Option β) (val : ρ → K) (l : List ρ) (b : β) :
    binMean bin val l b * (counts bin l b : K) = ((l.filter fun r => decide (bin r = some b)).map val).sum := by
  rcases binMean_eq bin val l b with h | h
  · exact h
  · have h0 : counts bin l b = 0 := by exact_mod_cast h
    rw [h, (counts_eq_zero_iff bin l b).mp h0]; simp

/-- The weighted average of the means of two parts is the mean of both. -/
theorem average_binMean (bin : ρ → Option β) (val : ρ → K) (l m : List ρ) (b : β) :
    average (binMean bin val l b) (counts bin l b) (binMean bin val m b) (counts bin m b) = binMean bin val (l ++ m) b := by
  unfold average
  rw [binMean_mul, binMean_mul, ← counts_append]
  by_cases h : counts bin (l ++ m) b = 0
  · rw [if_pos h]
    unfold binMean
    simp [(counts_eq_zero_iff bin (l ++ m) b).mp h]
  · rw [if_neg h]
    have hne : ((l ++ m).filter fun r => decide (bin r = some b)) ≠ [] := fun h0 => h ((counts_eq_zero_iff _ _ _).mpr h0)
    unfold binMean
    simp only [hne, if_false]
    rw [← counts_eq_length, List.filter_append, List.map_append, List.sum_append]

omit [IsStrictOrderedRing K] [LinearOrder K] in
/-- The final value: NaN without entries, otherwise the mean. -/
theorem final_eq_mean (bin : ρ → Option β) (val : ρ → K) (l : List ρ) (b : β) :
    (if counts bin l b = 0 then none else some (binMean bin val l b)) =
      mean ((l.filter fun r => decide (bin r = some b)).map val) := by
  unfold mean binMean
  by_cases h : counts bin l b = 0
  · simp [h, (counts_eq_zero_iff bin l b).mp h]
  · have hne : (l.filter fun r => decide (bin r = some b)) ≠ [] := fun h0 => h ((counts_eq_zero_iff _ _ _).mpr h0)
    simp [h, hne]
end

/-! ### Bins -/

section
variable [Field K] [LinearOrder K]

/-- In an increasing list the elements up to `v` are the first ones. -/
theorem countP_le_iff {edges : List K} (h : edges.Pairwise (· < ·)) (v : K) (i : Nat) (x : K) (hi : edges[i]? = some x) :
    x ≤ v ↔ i < edges.countP (fun e => decide (e ≤ v)) := by
  induction edges generalizing i with
  | nil => simp at hi
  | cons a r ih =>
    rw [List.pairwise_cons] at h
    by_cases hav : a ≤ v
    · rw [List.countP_cons_of_pos (by simpa using hav)]
      cases i with
      | zero => simp at hi; subst hi; simp [hav]
      | succ i => rw [ih h.2 i (by simpa using hi)]; omega
    · have hz : List.countP (fun e => decide (e ≤ v)) (a :: r) = 0 := by
        rw [List.countP_eq_zero]
        intro e he
        rcases List.mem_cons.mp he with rfl | he
        · simpa using hav
        · have := h.1 e he
          simp only [decide_eq_true_eq, not_le]
          exact lt_trans (not_le.mp hav) this
      rw [hz]
      have hx : a ≤ x := by
        cases i with
        | zero => simp at hi; exact le_of_eq hi
        | succ i =>
          have : x ∈ r := List.mem_of_getElem? (by simpa using hi)
          exact le_of_lt (h.1 x this)
      constructor
      · intro hxv; exact absurd (le_trans hx hxv) hav
      · intro h0; omega

theorem lt_of_getElem? {edges : List K} (h : edges.Pairwise (· < ·)) {i j : Nat} {x y : K} (hi : edges[i]? = some x)
    (hj : edges[j]? = some y) (hij : i < j) : x < y := by
  obtain ⟨h1, rfl⟩ := List.getElem?_eq_some_iff.mp hi
  obtain ⟨h2, rfl⟩ := List.getElem?_eq_some_iff.mp hj
  exact List.pairwise_iff_getElem.mp h i j h1 h2 hij

/-- The bin of a value is the bin it belongs to. -/
theorem binIndex_iff {edges : List K} (h : ValidEdges edges) (v : K) (i : Nat) :
    binIndex edges v = some i ↔ InBin edges i v := by
  obtain ⟨hl, hp⟩ := h
  obtain ⟨first, hf⟩ : ∃ a, edges.head? = some a := by
    cases edges with
    | nil => simp at hl
    | cons a r => exact ⟨a, rfl⟩
  obtain ⟨last, hla⟩ : ∃ a, edges.getLast? = some a := by
    cases edges with
    | nil => simp at hl
    | cons a r => exact ⟨_, List.getLast?_eq_some_getLast (by simp)⟩
  have hf' : edges[0]? = some first := by rw [← hf, List.head?_eq_getElem?]
  have hla' : edges[edges.length - 1]? = some last := by rw [← hla, List.getLast?_eq_getElem?]
  unfold binIndex InBin
  rw [hf, hla]
  simp only [if_neg (show ¬ edges.length < 2 by omega)]
  have hget : ∀ j, j < edges.length → ∃ x, edges[j]? = some x := fun j hj => ⟨edges[j], List.getElem?_eq_getElem hj⟩
  by_cases hv : v = last
  · rw [if_pos hv]
    subst hv
    constructor
    · intro he
      simp only [Option.some.injEq] at he
      subst he
      obtain ⟨x, hx⟩ := hget (edges.length - 2) (by omega)
      refine ⟨x, v, hx, by rw [show edges.length - 2 + 1 = edges.length - 1 by omega]; exact hla', ?_, .inr ⟨rfl, by omega⟩⟩
      exact le_of_lt (lt_of_getElem? hp hx hla' (by omega))
    · rintro ⟨lo, hi, h1, h2, h3, h4⟩
      have hi1 := (List.getElem?_eq_some_iff.mp h2).1
      rcases h4 with h4 | ⟨-, h4⟩
      · exfalso
        by_cases he : i + 1 = edges.length - 1
        · rw [he, hla'] at h2
          simp only [Option.some.injEq] at h2
          rw [h2] at h4; exact lt_irrefl _ h4
        · have := lt_of_getElem? hp h2 hla' (by omega)
          exact lt_asymm h4 this
      · simp only [Option.some.injEq]; omega
  rw [if_neg hv]
  by_cases hout : v < first ∨ last < v
  · rw [if_pos hout]
    constructor
    · intro h0; simp at h0
    · rintro ⟨lo, hi, h1, h2, h3, h4⟩
      exfalso
      have hi1 := (List.getElem?_eq_some_iff.mp h2).1
      rcases hout with ho | ho
      · have : first ≤ lo := by
          by_cases h0 : i = 0
          · subst h0; rw [h1] at hf'; simp at hf'; exact le_of_eq hf'.symm
          · exact le_of_lt (lt_of_getElem? hp hf' h1 (by omega))
        exact absurd (lt_of_lt_of_le ho (le_trans this h3)) (lt_irrefl _)
      · have h5 : hi ≤ last := by
          by_cases he : i + 1 = edges.length - 1
          · rw [he, hla'] at h2; simp at h2; exact le_of_eq h2.symm
          · exact le_of_lt (lt_of_getElem? hp h2 hla' (by omega))
        rcases h4 with h4 | ⟨h4, -⟩
        · exact absurd (lt_of_lt_of_le h4 (le_trans h5 (le_of_lt ho))) (lt_irrefl _)
        · rw [h4] at ho; exact absurd (lt_of_lt_of_le ho h5) (lt_irrefl _)
  rw [if_neg hout]
  rw [not_or, not_lt, not_lt] at hout
  obtain ⟨h1, h2⟩ := hout
  have h2' : v < last := lt_of_le_of_ne h2 hv
  have hpos : 0 < edges.countP (fun e => decide (e ≤ v)) := (countP_le_iff hp v 0 first hf').mp h1
  have hlt : ¬ edges.length - 1 < edges.countP (fun e => decide (e ≤ v)) := by
    rw [← countP_le_iff hp v _ last hla']; exact not_le.mpr h2'
  constructor
  · intro he
    simp only [Option.some.injEq] at he
    obtain ⟨x, hx⟩ := hget i (by omega)
    obtain ⟨y, hy⟩ := hget (i + 1) (by omega)
    refine ⟨x, y, hx, hy, (countP_le_iff hp v i x hx).mpr (by omega), .inl ?_⟩
    rw [← not_le, countP_le_iff hp v (i + 1) y hy]; omega
  · rintro ⟨lo, hi, h3, h4, h5, h6⟩
    have hi1 := (List.getElem?_eq_some_iff.mp h4).1
    have h7 := (countP_le_iff hp v i lo h3).mp h5
    have h8 : v < hi := by
      rcases h6 with h6 | ⟨h6, h9⟩
      · exact h6
      · rw [show i + 1 = edges.length - 1 by omega, hla'] at h4
        simp only [Option.some.injEq] at h4
        rw [← h4]; exact h2'
    rw [← not_le, countP_le_iff hp v (i + 1) hi h4] at h8
    simp only [Option.some.injEq]; omega

theorem binIndex2_iff {ex ey : List K} (hx : ValidEdges ex) (hy : ValidEdges ey) (x y : K) (i j : Nat) :
    binIndex2 ex ey x y = some (i, j) ↔ InBin ex i x ∧ InBin ey j y := by
  rw [← binIndex_iff hx, ← binIndex_iff hy]
  unfold binIndex2
  cases h1 : binIndex ex x <;> cases h2 : binIndex ey y <;> simp

/-- A value has at most one bin. -/
theorem inBin_unique {edges : List K} (h : ValidEdges edges) {v : K} {i j : Nat} (hi : InBin edges i v) (hj : InBin edges j v) :
    i = j := by
  rw [← binIndex_iff h] at hi hj
  rw [hi] at hj; simpa using hj
end

end BTA.Binning
