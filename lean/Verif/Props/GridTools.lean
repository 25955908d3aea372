import Verif.Model.GridTools
import Verif.Props.ArrayTools
import Mathlib.Data.Rat.Floor
import Mathlib.Algebra.Order.Floor.Ring
import Mathlib.Data.Finset.Dedup
import Mathlib.Data.Finset.Card
import Mathlib.Tactic.Linarith
import Mathlib.Tactic.FieldSimp
/- Theorems C172 (binned_statistic) and C173 (count_unique_neighbors). -/
namespace BTA.GridTools.Props
open BTA.GridTools

/-! ### C172 -/

section
variable {K V R : Type} [Field K] [LinearOrder K] [IsStrictOrderedRing K] [FloorRing K]

theorem scaled {nbins : Nat} {r0 r1 : K} (hn : 0 < nbins) (hr : r0 < r1) (x c : K) :
    (c ≤ (nbins : K) / (r1 - r0) * (x - r0) ↔ r0 + c * ((r1 - r0) / nbins) ≤ x) ∧
    ((nbins : K) / (r1 - r0) * (x - r0) < c ↔ x < r0 + c * ((r1 - r0) / nbins)) := by
  have hnK : (0 : K) < nbins := by exact_mod_cast hn
  have hd : 0 < r1 - r0 := by linarith
  have e : (nbins : K) / (r1 - r0) * (x - r0) = (x - r0) / ((r1 - r0) / nbins) := by field_simp
  have hw : 0 < (r1 - r0) / (nbins : K) := by positivity
  rw [e, le_div_iff₀ hw, div_lt_iff₀ hw]
  constructor <;> constructor <;> intro h <;> linarith

/-- C172, the true part. For positions from `r0` up to (not including) `r1`: there is a group for every bin, with the values in the bin in their order,
to which the function is applied. -/
theorem C172_groups_partial (func : List V → R) {nbins : Nat} {r0 r1 : K} (hn : 0 < nbins) (hr : r0 < r1) (rows : List (K × V))
    (h : ∀ p ∈ rows, r0 ≤ p.1 ∧ p.1 < r1) :
    binnedStatistic func nbins r0 r1 rows = some ((List.range nbins).map fun i : Nat => func
      ((rows.filter fun p => decide (r0 + (i : K) * ((r1 - r0) / nbins) ≤ p.1 ∧ p.1 < r0 + ((i : K) + 1) * ((r1 - r0) / nbins))).map Prod.snd)) := by
  have hnK : (nbins : K) ≠ 0 := by exact_mod_cast hn.ne'
  have key : ∀ p ∈ rows, 0 ≤ (nbins : K) / (r1 - r0) * (p.1 - r0) ∧ (nbins : K) / (r1 - r0) * (p.1 - r0) < nbins := by
    intro p hp
    obtain ⟨h1, h2⟩ := h p hp
    constructor
    · rw [(scaled hn hr p.1 0).1]; linarith
    · rw [(scaled hn hr p.1 nbins).2]
      have : (nbins : K) * ((r1 - r0) / nbins) = r1 - r0 := by field_simp
      linarith
  have hd : ∀ p ∈ rows, digitize nbins r0 r1 p.1 = ⌊(nbins : K) / (r1 - r0) * (p.1 - r0)⌋ := by
    intro p hp
    unfold digitize
    rw [if_pos (key p hp).1]
  unfold binnedStatistic
  rw [if_neg]
  · congr 1
    apply List.map_congr_left
    intro i hi
    congr 2
    apply List.filter_congr
    intro p hp
    rw [decide_eq_decide, hd p hp, Int.floor_eq_iff]
    push_cast
    rw [(scaled hn hr p.1 i).1, (scaled hn hr p.1 (i + 1)).2]
  · rw [List.any_eq_true]
    rintro ⟨p, hp, hbad⟩
    rw [decide_eq_true_eq, hd p hp] at hbad
    obtain ⟨h1, h2⟩ := key p hp
    rcases hbad with hbad | hbad
    · have := Int.floor_nonneg.mpr h1; omega
    · have h3 : (((nbins : Int) : Int) : K) ≤ (nbins : K) / (r1 - r0) * (p.1 - r0) := Int.le_floor.mp hbad
      push_cast at h3
      linarith

/-- C172, errors: a ValueError iff a position is at or above the upper end, or at least one bin width below the lower end. So the upper end itself,
which belongs to the last bin in scipy's function, raises an exception. -/
theorem C172_error_iff (func : List V → R) {nbins : Nat} {r0 r1 : K} (hn : 0 < nbins) (hr : r0 < r1) (rows : List (K × V)) :
    binnedStatistic func nbins r0 r1 rows = none ↔ ∃ p ∈ rows, r1 ≤ p.1 ∨ p.1 ≤ r0 - (r1 - r0) / nbins := by
  have hnK : (nbins : K) ≠ 0 := by exact_mod_cast hn.ne'
  have hnp : (0 : K) < nbins := by exact_mod_cast hn
  have key : ∀ x : K, (digitize nbins r0 r1 x < 0 ∨ (nbins : Int) ≤ digitize nbins r0 r1 x) ↔ r1 ≤ x ∨ x ≤ r0 - (r1 - r0) / nbins := by
    intro x
    have e1 : r0 + (nbins : K) * ((r1 - r0) / nbins) = r1 := by field_simp; ring
    have s1 := (scaled hn hr x nbins).1
    rw [e1] at s1
    have s2 := (scaled hn hr x (-1)).2
    have s2' : (nbins : K) / (r1 - r0) * (x - r0) ≤ -1 ↔ x ≤ r0 - (r1 - r0) / nbins := by
      have hd : 0 < r1 - r0 := by linarith
      have e : (nbins : K) / (r1 - r0) * (x - r0) = (x - r0) / ((r1 - r0) / nbins) := by field_simp
      have hw : 0 < (r1 - r0) / (nbins : K) := by positivity
      rw [e, div_le_iff₀ hw]
      constructor <;> intro h <;> linarith
    rw [← s1, ← s2']
    unfold digitize
    split
    · rename_i h0
      constructor
      · rintro (h | h)
        · have := Int.floor_nonneg.mpr h0; omega
        · left; have h3 := Int.le_floor.mp h; push_cast at h3; exact h3
      · rintro (h | h)
        · right; apply Int.le_floor.mpr; push_cast; exact h
        · exfalso; linarith
    · rename_i h0
      rw [not_le] at h0
      constructor
      · rintro (h | h)
        · right
          have h3 : ⌈(nbins : K) / (r1 - r0) * (x - r0)⌉ ≤ -1 := by omega
          have := Int.ceil_le.mp h3
          push_cast at this; exact this
        · exfalso
          have h3 : ⌈(nbins : K) / (r1 - r0) * (x - r0)⌉ ≤ 0 := Int.ceil_le.mpr (by push_cast; exact h0.le)
          omega
      · rintro (h | h)
        · exfalso; linarith
        · left
          have h3 : ⌈(nbins : K) / (r1 - r0) * (x - r0)⌉ ≤ -1 := Int.ceil_le.mpr (by push_cast; exact h)
          omega
  unfold binnedStatistic
  split
  · rename_i h
    obtain ⟨p, hp, hb⟩ := List.any_eq_true.mp h
    rw [decide_eq_true_eq, key] at hb
    exact ⟨fun _ => ⟨p, hp, hb⟩, fun _ => rfl⟩
  · rename_i h
    constructor
    · intro h'; exact absurd h' (by simp)
    · rintro ⟨p, hp, hb⟩
      exact absurd (List.any_eq_true.mpr ⟨p, hp, by rw [decide_eq_true_eq, key]; exact hb⟩) h

/-- C172, false in general: a value less than one bin below the range is put into the first bin. -/
theorem C172_below {nbins : Nat} {r0 r1 : K} (hn : 0 < nbins) (hr : r0 < r1) (x : K) (v : V) (h1 : r0 - (r1 - r0) / nbins < x) (h2 : x < r0) :
    ∃ rest, binnedStatistic id nbins r0 r1 [(x, v)] = some ([v] :: rest) := by
  have hnp : (0 : K) < nbins := by exact_mod_cast hn
  have hlow : (nbins : K) / (r1 - r0) * (x - r0) < 0 := by rw [(scaled hn hr x 0).2]; linarith
  have hhigh : -1 < (nbins : K) / (r1 - r0) * (x - r0) := by
    have hd : 0 < r1 - r0 := by linarith
    have e : (nbins : K) / (r1 - r0) * (x - r0) = (x - r0) / ((r1 - r0) / nbins) := by field_simp
    have hw : 0 < (r1 - r0) / (nbins : K) := by positivity
    rw [e, lt_div_iff₀ hw]; linarith
  have hd : digitize nbins r0 r1 x = 0 := by
    unfold digitize
    rw [if_neg (not_le.mpr hlow), Int.ceil_eq_iff]
    push_cast
    constructor <;> linarith
  obtain ⟨k, rfl⟩ : ∃ k, nbins = k + 1 := ⟨nbins - 1, by omega⟩
  unfold binnedStatistic
  rw [if_neg (by simp [hd]), List.range_succ_eq_map, List.map_cons]
  refine ⟨_, congrArg some (congrArg₂ List.cons ?_ rfl)⟩
  simp [hd]

/-- Two bins from 0 to 10. -/
example : binnedStatistic (fun l : List Nat => l) 2 (0 : ℚ) 10 [(1, 7), (5, 8), (9, 9), (0, 6)] = some [[7, 6], [8, 9]] ∧
    binnedStatistic (fun l : List Nat => l) 2 (0 : ℚ) 10 [(1, 7), (10, 8)] = none ∧
    binnedStatistic (fun l : List Nat => l) 2 (0 : ℚ) 10 [(-4, 7)] = some [[7], []] := by decide +kernel
end

/-! ### C173 -/

/-- Indices at a distance of at most `e` of an index, within an axis of length `n`. -/
def near (n e r : Nat) : List Nat := (List.range n).filter fun i => decide (r ≤ i + e ∧ i ≤ r + e)

theorem reflect_near {n e r : Nat} (hr : r < n) (he : e < n) {d : Int} (h1 : -(e : Int) ≤ d) (h2 : d ≤ e) :
    reflect n ((r : Int) + d) ∈ near n e r := by
  unfold near reflect
  rw [List.mem_filter, List.mem_range]
  simp only [decide_eq_true_eq]
  split
  · omega
  · rename_i hn
    by_cases hneg : (r : Int) + d < 0
    · have hm : ((r : Int) + d) % (2 * ((n : Int) - 1)) = (r : Int) + d + 2 * ((n : Int) - 1) := by
        rw [← Int.add_emod_right, Int.emod_eq_of_lt (by omega) (by omega)]
      rw [hm]
      split <;> omega
    · by_cases hbig : (r : Int) + d < 2 * ((n : Int) - 1)
      · have hm : ((r : Int) + d) % (2 * ((n : Int) - 1)) = (r : Int) + d := Int.emod_eq_of_lt (by omega) hbig
        rw [hm]
        split <;> omega
      · have hm : ((r : Int) + d) % (2 * ((n : Int) - 1)) = (r : Int) + d - 2 * ((n : Int) - 1) := by
          rw [← Int.sub_emod_right, Int.emod_eq_of_lt (by omega) (by omega)]
        rw [hm]
        split <;> omega

theorem reflect_inside {n : Nat} {i : Nat} (hi : i < n) : reflect n (i : Int) = i := by
  unfold reflect
  split
  · omega
  · rename_i hn
    by_cases h : (i : Int) < 2 * ((n : Int) - 1)
    · rw [Int.emod_eq_of_lt (by omega) h, if_pos (by omega)]; omega
    · omega

theorem mem_offsets {k : Nat} {s : Nat → Nat → Bool} {d : Int × Int} :
    d ∈ offsets k s ↔ ∃ i j : Nat, i < k ∧ j < k ∧ s i j = true ∧ d = ((i : Int) - (k / 2 : Nat), (j : Int) - (k / 2 : Nat)) := by
  unfold offsets
  rw [List.mem_flatMap]
  constructor
  · rintro ⟨i, hi, hd⟩
    obtain ⟨j, hj, rfl⟩ := List.mem_map.mp hd
    rw [List.mem_filter, List.mem_range] at hj
    exact ⟨i, j, List.mem_range.mp hi, hj.1, hj.2, rfl⟩
  · rintro ⟨i, j, hi, hj, hs, rfl⟩
    exact ⟨i, List.mem_range.mpr hi, List.mem_map.mpr ⟨j, List.mem_filter.mpr ⟨List.mem_range.mpr hj, hs⟩, rfl⟩⟩

/-- C173. With a square of `2 e + 1` rows and columns as structuring element (`e = 1` is the default) the result is the number of different values
among the elements at a distance of at most `e` rows and columns, the element itself included; at the border only elements of the array count. -/
theorem C173_square (m n e : Nat) (arr : Nat → Nat → Nat) (hm : e < m) (hn : e < n) :
    ∃ f, countUniqueNeighbors m n arr (some ((2 * e + 1, 2 * e + 1), fun _ _ => true)) = .ok f ∧
      ∀ r c, r < m → c < n → f r c = (((near m e r).flatMap fun i => (near n e c).map fun j => arr i j).dedup).length := by
  have hmem : ∀ a b : Int, -(e : Int) ≤ a → a ≤ e → -(e : Int) ≤ b → b ≤ e → (a, b) ∈ offsets (2 * e + 1) fun _ _ => true := by
    intro a b h1 h2 h3 h4
    rw [mem_offsets]
    refine ⟨(a + e).toNat, (b + e).toNat, by omega, by omega, rfl, ?_⟩
    rw [Prod.mk.injEq]
    constructor <;> omega
  unfold countUniqueNeighbors
  simp only [Option.map_some, Option.getD_some, ne_eq, not_true_eq_false, if_false]
  rw [if_neg (by omega), if_neg (by intro h; have := hmem 0 0 (by omega) (by omega) (by omega) (by omega); rw [h] at this; exact absurd this (by simp))]
  refine ⟨_, rfl, ?_⟩
  intro r c hr hc
  beta_reduce
  rw [BTA.Props.C52_unique, ← List.card_toFinset, ← List.card_toFinset]
  congr 1
  ext v
  rw [List.mem_toFinset, List.mem_toFinset, List.mem_map, List.mem_flatMap]
  constructor
  · rintro ⟨d, hd, rfl⟩
    obtain ⟨i, j, hi, hj, -, rfl⟩ := mem_offsets.mp hd
    exact ⟨_, reflect_near hr hm (by dsimp only; omega) (by dsimp only; omega),
      List.mem_map.mpr ⟨_, reflect_near hc hn (by dsimp only; omega) (by dsimp only; omega), rfl⟩⟩
  · rintro ⟨i, hi, hv⟩
    obtain ⟨j, hj, rfl⟩ := List.mem_map.mp hv
    unfold near at hi hj
    rw [List.mem_filter, List.mem_range, decide_eq_true_eq] at hi hj
    refine ⟨((i : Int) - r, (j : Int) - c), hmem _ _ (by omega) (by omega) (by omega) (by omega), ?_⟩
    have e1 : (r : Int) + ((i : Int) - r) = i := by omega
    have e2 : (c : Int) + ((j : Int) - c) = j := by omega
    dsimp only
    rw [e1, e2, reflect_inside hi.1, reflect_inside hj.1]

/-- C173: the default is the square of 3 x 3. -/
theorem C173_default (m n : Nat) (arr : Nat → Nat → Nat) :
    countUniqueNeighbors m n arr none = countUniqueNeighbors m n arr (some ((3, 3), fun _ _ => true)) := rfl

/-- C173: the values in a structuring element with an odd number of rows and columns, away from the border. -/
theorem C173_inside (m n e : Nat) (arr : Nat → Nat → Nat) (s : Nat → Nat → Bool) (hs : ∃ i j, i < 2 * e + 1 ∧ j < 2 * e + 1 ∧ s i j = true) :
    ∃ f, countUniqueNeighbors m n arr (some ((2 * e + 1, 2 * e + 1), s)) = .ok f ∧
      ∀ r c, e ≤ r → r + e < m → e ≤ c → c + e < n → f r c = (((List.range (2 * e + 1)).flatMap fun i => ((List.range (2 * e + 1)).filter fun j => s i j).map
        fun j => arr (r + i - e) (c + j - e)).dedup).length := by
  unfold countUniqueNeighbors
  simp only [Option.map_some, Option.getD_some, ne_eq, not_true_eq_false, if_false]
  have hne : offsets (2 * e + 1) s ≠ [] := by
    obtain ⟨i, j, hi, hj, hij⟩ := hs
    intro h
    have : (((i : Int) - ((2 * e + 1) / 2 : Nat), (j : Int) - ((2 * e + 1) / 2 : Nat)) : Int × Int) ∈ offsets (2 * e + 1) s :=
      mem_offsets.mpr ⟨i, j, hi, hj, hij, rfl⟩
    rw [h] at this
    exact absurd this (by simp)
  rw [if_neg (by omega), if_neg hne]
  refine ⟨_, rfl, ?_⟩
  intro r c h1 h2 h3 h4
  beta_reduce
  rw [BTA.Props.C52_unique]
  congr 2
  unfold offsets
  rw [List.map_flatMap]
  apply List.flatMap_congr
  intro i hi
  rw [List.map_map]
  apply List.map_congr_left
  intro j hj
  rw [List.mem_range] at hi
  rw [List.mem_filter, List.mem_range] at hj
  simp only [Function.comp]
  have e1 : (r : Int) + ((i : Int) - ((2 * e + 1) / 2 : Nat)) = ((r + i - e : Nat) : Int) := by omega
  have e2 : (c : Int) + ((j : Int) - ((2 * e + 1) / 2 : Nat)) = ((c + j - e : Nat) : Int) := by omega
  rw [e1, e2, reflect_inside (by omega), reflect_inside (by omega)]

/-- C173: the exceptions. The symmetry that the documentation asks for is not checked, only the numbers of rows and columns. -/
theorem C173_error_iff (m n : Nat) (arr : Nat → Nat → Nat) (k l : Nat) (s : Nat → Nat → Bool) :
    (∃ e, countUniqueNeighbors m n arr (some ((k, l), s)) = .error e) ↔ k ≠ l ∨ k % 2 = 0 ∨ ∀ i j, i < k → j < k → s i j = false := by
  unfold countUniqueNeighbors
  simp only [Option.map_some, Option.getD_some]
  by_cases h1 : k = l
  · subst h1
    rw [if_neg (by simp)]
    by_cases h2 : k % 2 = 0
    · rw [if_pos h2]
      exact ⟨fun _ => .inr (.inl h2), fun _ => ⟨_, rfl⟩⟩
    · rw [if_neg h2]
      by_cases h3 : offsets k s = []
      · rw [if_pos h3]
        refine ⟨fun _ => .inr (.inr ?_), fun _ => ⟨_, rfl⟩⟩
        intro i j hi hj
        by_contra hc
        have : (((i : Int) - (k / 2 : Nat), (j : Int) - (k / 2 : Nat)) : Int × Int) ∈ offsets k s :=
          mem_offsets.mpr ⟨i, j, hi, hj, by simpa using hc, rfl⟩
        rw [h3] at this
        exact absurd this (by simp)
      · rw [if_neg h3]
        constructor
        · rintro ⟨e, he⟩; exact absurd he (by simp)
        · rintro (h | h | h)
          · exact absurd rfl h
          · exact absurd h h2
          · obtain ⟨d, hd⟩ := List.exists_mem_of_ne_nil _ h3
            obtain ⟨i, j, hi, hj, hs, -⟩ := mem_offsets.mp hd
            rw [h i j hi hj] at hs
            exact absurd hs (by simp)
  · rw [if_pos h1]
    exact ⟨fun _ => .inl h1, fun _ => ⟨_, rfl⟩⟩

/-- An array of 3 x 4 elements with different values 10 r + c; the corner has 4 different neighbours, an inner element 9. With a column only at the
right as structuring element (not symmetric, accepted) the last column sees the reflected neighbour. -/
example : ((countUniqueNeighbors 3 4 (fun r c => 10 * r + c) none).toOption.map fun f => (f 0 0, f 1 1, f 0 1)) = some (4, 9, 6) := by decide +kernel

end BTA.GridTools.Props
