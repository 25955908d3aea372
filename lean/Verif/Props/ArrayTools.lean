import Verif.Model.ArrayTools
import Mathlib.Tactic.Linarith
import Mathlib.Tactic.Ring
import Mathlib.Tactic.FieldSimp
import Mathlib.Data.List.Rotate
import Mathlib.Algebra.BigOperators.Group.List.Basic
import Mathlib.Data.Finset.Card
import Mathlib.Algebra.Order.Ring.Rat
import Mathlib.Tactic.NormNum
import Mathlib.Tactic.LinearCombination

/-! Properties C48 – C52: small array functions. -/

namespace BTA.Props
open BTA

variable {K : Type} [Field K] [LinearOrder K] [IsStrictOrderedRing K]

/-! ### C49 -/

theorem searchsorted_facts [LinearOrder E] (arr : List E) (v : E) (hs : arr.Pairwise (· ≤ ·)) :
    searchsorted arr v ≤ arr.length ∧ (∀ i (h : i < arr.length), i < searchsorted arr v → arr[i] < v) ∧
    (∀ i (h : i < arr.length), searchsorted arr v ≤ i → v ≤ arr[i]) := by
  unfold searchsorted
  induction arr with
  | nil => simp
  | cons a r ih =>
    rw [List.pairwise_cons] at hs
    obtain ⟨h1, h2, h3⟩ := ih hs.2
    by_cases ha : a < v
    · rw [List.takeWhile_cons_of_pos (by simpa using ha)]
      refine ⟨by simpa using h1, ?_, ?_⟩
      · intro i h hi
        cases i with
        | zero => simpa using ha
        | succ i => simpa using h2 i (by simpa using h) (by simpa using hi)
      · intro i h hi
        cases i with
        | zero => simp at hi
        | succ i => simpa using h3 i (by simpa using h) (by simpa using hi)
    · rw [List.takeWhile_cons_of_neg (by simpa using ha)]
      refine ⟨by simp, by simp, ?_⟩
      intro i h _
      have hav : v ≤ a := not_lt.mp ha
      cases i with
      | zero => simpa using hav
      | succ i =>
        simp only [List.getElem_cons_succ]
        exact hav.trans (hs.1 _ (List.getElem_mem _))

/-- C49: the returned index points to an element with minimal distance to the value. -/
theorem C49_find_closest (arr : List K) (v : K) (hs : arr.Pairwise (· ≤ ·)) (hlen : 2 ≤ arr.length) :
    ∃ i, ∃ h : i < arr.length, findClosest arr v = some i ∧ ∀ x ∈ arr, |arr[i] - v| ≤ |x - v| := by
  obtain ⟨hle, hlt, hge⟩ := searchsorted_facts arr v hs
  have hmono : ∀ i j (hi : i < arr.length) (hj : j < arr.length), i ≤ j → arr[i] ≤ arr[j] := by
    intro i j hi hj hij
    rcases Nat.lt_or_ge i j with h | h
    · exact List.pairwise_iff_getElem.mp hs i j hi hj h
    · have : i = j := by omega
      subst this
      exact le_refl _
  generalize hk : searchsorted arr v = k at *
  unfold findClosest
  simp only [hk]
  have hi1 : min (max k 1) (arr.length - 1) - 1 < arr.length := by omega
  have hi2 : min (max k 1) (arr.length - 1) < arr.length := by omega
  rw [List.getElem?_eq_getElem hi1, List.getElem?_eq_getElem hi2]
  generalize hidx : min (max k 1) (arr.length - 1) = idx at *
  have h1 : ∀ j (hj : j < arr.length), j < idx → arr[j] ≤ arr[idx - 1] := fun j hj h => hmono _ _ _ _ (by omega)
  have h2 : ∀ j (hj : j < arr.length), idx ≤ j → arr[idx] ≤ arr[j] := fun j hj h => hmono _ _ _ _ (by omega)
  have hlr : arr[idx - 1] ≤ arr[idx] := hmono _ _ _ _ (by omega)
  -- left of idx: either all smaller than v, or idx = 1 and v ≤ arr[0]
  have hleft : arr[idx - 1] < v ∨ (idx = 1 ∧ v ≤ arr[idx - 1]) := by
    by_cases hk0 : k = 0
    · right
      exact ⟨by omega, hge _ _ (by omega)⟩
    · left
      exact hlt _ _ (by omega)
  have hright : v ≤ arr[idx] ∨ (idx = arr.length - 1 ∧ arr[idx] < v) := by
    by_cases hkn : k = arr.length
    · right
      exact ⟨by omega, hlt _ _ (by omega)⟩
    · left
      exact hge _ _ (by omega)
  by_cases hc : v - arr[idx - 1] < arr[idx] - v
  · refine ⟨idx - 1, hi1, by simp [hc], ?_⟩
    intro x hx
    obtain ⟨j, hj, rfl⟩ := List.mem_iff_getElem.mp hx
    rcases Nat.lt_or_ge j idx with hji | hji
    · have := h1 j hj hji
      rcases hleft with h | ⟨h, h'⟩
      · rw [abs_of_nonpos (by linarith), abs_of_nonpos (by linarith)]; linarith
      · have : j = idx - 1 := by omega
        subst this; exact le_refl _
    · have := h2 j hj hji
      rw [abs_le]
      have h3 : arr[j] - v ≤ |arr[j] - v| := le_abs_self _
      constructor <;> linarith
  · refine ⟨idx, hi2, by simp [hc], ?_⟩
    intro x hx
    obtain ⟨j, hj, rfl⟩ := List.mem_iff_getElem.mp hx
    rcases Nat.lt_or_ge j idx with hji | hji
    · have := h1 j hj hji
      rw [abs_le]
      have h3 : -(arr[j] - v) ≤ |arr[j] - v| := neg_le_abs _
      constructor <;> linarith
    · have := h2 j hj hji
      rcases hright with h | ⟨h, h'⟩
      · rw [abs_of_nonneg (by linarith), abs_of_nonneg (by linarith)]; linarith
      · have : j = idx := by omega
        subst this; exact le_refl _

example : findClosest ([1, 4, 9] : List ℚ) 6 = some 1 ∧ findClosest ([1, 4, 9] : List ℚ) 100 = some 2 := by
  refine ⟨?_, ?_⟩ <;> norm_num [findClosest, searchsorted, List.takeWhile]

/-! ### C50 -/

/-- `sorter` is a result of `np.argsort(ar2)`: a permutation of the indices that sorts the array. -/
def IsArgsort [LinearOrder E] (ar2 : List E) (sorter : List Nat) : Prop :=
  sorter.Perm (List.range ar2.length) ∧ (sorter.filterMap fun i => ar2[i]?).Pairwise (· ≤ ·)

/-- The position found for a value holds this value if it occurs at all. -/
theorem in1dPosition_spec [LinearOrder E] (ar2 : List E) (sorter : Option (List Nat)) (v : E) (hne : ar2 ≠ [])
    (hsort : match sorter with | none => ar2.Pairwise (· ≤ ·) | some s => IsArgsort ar2 s) :
    ∃ j, in1dPosition ar2 sorter v = some j ∧ (takeClip ar2 j = some v ↔ v ∈ ar2) ∧ (v ∈ ar2 → ar2[j]? = some v) := by
  have hlen : 0 < ar2.length := List.length_pos_of_ne_nil hne
  have clip : ∀ j, takeClip ar2 j = some v → v ∈ ar2 := fun j h => List.mem_of_getElem? h
  have clip' : ∀ j, ar2[j]? = some v → takeClip ar2 j = some v := by
    intro j h
    have := (List.getElem?_eq_some_iff.mp h).1
    unfold takeClip
    rw [Nat.min_eq_left (by omega)]
    exact h
  have found : ∀ (l : List E), l.Pairwise (· ≤ ·) → v ∈ l → l[searchsorted l v]? = some v := by
    intro l hl hv
    obtain ⟨h1, h2, h3⟩ := searchsorted_facts l v hl
    obtain ⟨i, hi, rfl⟩ := List.mem_iff_getElem.mp hv
    have hki : searchsorted l l[i] ≤ i := by
      by_contra hcon
      exact lt_irrefl _ (h2 i hi (by omega))
    rw [List.getElem?_eq_getElem (by omega)]
    congr 1
    apply le_antisymm
    · rcases Nat.lt_or_ge (searchsorted l l[i]) i with h | h
      · exact List.pairwise_iff_getElem.mp hl _ _ _ hi h
      · have : searchsorted l l[i] = i := by omega
        simp only [this, le_refl]
    · exact h3 _ (by omega) (le_refl _)
  cases sorter with
  | none =>
    refine ⟨_, rfl, ⟨clip _, fun hv => clip' _ (found ar2 hsort hv)⟩, fun hv => found ar2 hsort hv⟩
  | some s =>
    obtain ⟨hperm, hsorted⟩ := hsort
    have hslen : s.length = ar2.length := by simpa using hperm.length_eq
    have hmemlt : ∀ i ∈ s, i < ar2.length := by
      intro i hi
      simpa using hperm.mem_iff.mp hi
    -- the sorted array
    have hmap : (s.filterMap fun i => ar2[i]?).map some = s.map fun i => ar2[i]? := by
      clear hperm hsorted hslen
      induction s with
      | nil => rfl
      | cons a r ih =>
        have ha := hmemlt a (by simp)
        rw [List.filterMap_cons, List.getElem?_eq_getElem ha]
        simp only [List.map_cons, List.getElem?_eq_getElem ha]
        rw [ih fun i hi => hmemlt i (List.mem_cons_of_mem _ hi)]
    have hSlen : (s.filterMap fun i => ar2[i]?).length = ar2.length := by
      have := congrArg List.length hmap
      simpa [hslen] using this
    have hget : ∀ k (hk : k < s.length), (s.filterMap fun i => ar2[i]?)[k]? = ar2[s[k]]? := by
      intro k hk
      have := congrArg (fun l => l[k]?) hmap
      simp only [List.getElem?_map, List.getElem?_eq_getElem hk, Option.map_some] at this
      rw [List.getElem?_eq_getElem (show k < (s.filterMap fun i => ar2[i]?).length by omega)] at this ⊢
      simpa using this
    have hvm : v ∈ ar2 → v ∈ (s.filterMap fun i => ar2[i]?) := by
      intro hv
      obtain ⟨i, hi, rfl⟩ := List.mem_iff_getElem.mp hv
      rw [List.mem_filterMap]
      exact ⟨i, hperm.mem_iff.mpr (by simpa using hi), List.getElem?_eq_getElem hi⟩
    have hk : (if searchsorted (s.filterMap fun i => ar2[i]?) v ≥ ar2.length then ar2.length - 1
        else searchsorted (s.filterMap fun i => ar2[i]?) v) < s.length := by
      split <;> omega
    refine ⟨_, List.getElem?_eq_getElem hk, ?_, ?_⟩
    · refine ⟨clip _, fun hv => clip' _ ?_⟩
      have hf := found _ hsorted (hvm hv)
      have hlt := (List.getElem?_eq_some_iff.mp hf).1
      rw [← hget _ hk, if_neg (by omega)]
      exact hf
    · intro hv
      have hf := found _ hsorted (hvm hv)
      have hlt := (List.getElem?_eq_some_iff.mp hf).1
      rw [← hget _ hk, if_neg (by omega)]
      exact hf

/-- C50: `in1d_index` returns exactly the positions of `ar1` whose value occurs in `ar2`, in increasing order, each with
an index of `ar2` holding the same value; for every result of argsort, and for sorted `ar2` with `assume_sorted`. -/
theorem C50_in1d_index [LinearOrder E] (ar1 ar2 : List E) (sorter : Option (List Nat)) (hne : ar2 ≠ [])
    (hsort : match sorter with | none => ar2.Pairwise (· ≤ ·) | some s => IsArgsort ar2 s) :
    (in1dIndex ar1 ar2 sorter).map Prod.fst
      = (List.range ar1.length).filter (fun i => decide (∃ v ∈ ar2, ar1[i]? = some v)) ∧
    ∀ p ∈ in1dIndex ar1 ar2 sorter, ∃ v, ar1[p.1]? = some v ∧ ar2[p.2]? = some v := by
  have step : ∀ (i : Nat) v, ar1[i]? = some v → ∃ j,
      in1dEntry ar1 ar2 sorter i = (if v ∈ ar2 then some (i, j) else none) ∧ (v ∈ ar2 → ar2[j]? = some v) := by
    intro i v hv
    obtain ⟨j, h1, h2, h3⟩ := in1dPosition_spec ar2 sorter v hne hsort
    refine ⟨j, ?_, h3⟩
    simp only [in1dEntry, hv, h1, h2]
  refine ⟨?_, ?_⟩
  · unfold in1dIndex
    have gen : ∀ l : List Nat, (∀ i ∈ l, i < ar1.length) →
        (l.filterMap (in1dEntry ar1 ar2 sorter)).map Prod.fst = l.filter (fun i => decide (∃ v ∈ ar2, ar1[i]? = some v)) := by
      intro l hl
      induction l with
      | nil => rfl
      | cons i r ih =>
        have hi := hl i (by simp)
        obtain ⟨j, h1, -⟩ := step i ar1[i] (List.getElem?_eq_getElem hi)
        rw [List.filterMap_cons, h1]
        have ih := ih fun i hi => hl i (List.mem_cons_of_mem _ hi)
        by_cases hv : ar1[i] ∈ ar2
        · rw [if_pos hv]
          simp only [List.map_cons]
          rw [ih, List.filter_cons_of_pos]
          simpa [List.getElem?_eq_getElem hi] using hv
        · rw [if_neg hv]
          simp only []
          rw [ih, List.filter_cons_of_neg]
          simpa [List.getElem?_eq_getElem hi] using hv
    exact gen _ (by simp)
  · intro p hp
    unfold in1dIndex at hp
    rw [List.mem_filterMap] at hp
    obtain ⟨i, hi, he⟩ := hp
    have hi' : i < ar1.length := by simpa using hi
    obtain ⟨j, h1, h2⟩ := step i ar1[i] (List.getElem?_eq_getElem hi')
    rw [h1] at he
    by_cases hv : ar1[i] ∈ ar2
    · rw [if_pos hv] at he
      cases he
      exact ⟨_, List.getElem?_eq_getElem hi', h2 hv⟩
    · rw [if_neg hv] at he
      cases he

/-- C50 with `fill_invalid`: one entry per position of `ar1`, an index of the value in `ar2` or the fill value. -/
theorem C50_in1d_index_fill [LinearOrder E] (ar1 ar2 : List E) (sorter : Option (List Nat)) (f : Int) (hne : ar2 ≠ [])
    (hsort : match sorter with | none => ar2.Pairwise (· ≤ ·) | some s => IsArgsort ar2 s) :
    (in1dIndexFill ar1 ar2 sorter f).length = ar1.length ∧
    ∀ (i : Nat) v, ar1[i]? = some v →
      (v ∉ ar2 → (in1dIndexFill ar1 ar2 sorter f)[i]? = some f) ∧
      (v ∈ ar2 → ∃ j : Nat, (in1dIndexFill ar1 ar2 sorter f)[i]? = some (j : Int) ∧ ar2[j]? = some v) := by
  refine ⟨by simp [in1dIndexFill], fun i v hv => ?_⟩
  obtain ⟨j, h1, h2, h3⟩ := in1dPosition_spec ar2 sorter v hne hsort
  unfold in1dIndexFill
  rw [List.getElem?_map, hv]
  simp only [Option.map_some, h1]
  refine ⟨fun hn => ?_, fun hm => ⟨j, ?_, h3 hm⟩⟩
  · rw [if_neg (by rw [h2]; exact hn)]
  · rw [if_pos (h2.mpr hm)]

example : IsArgsort [7, 3, (5 : Int)] [1, 2, 0] ∧ in1dIndex [5, 6, (7 : Int)] [7, 3, 5] (some [1, 2, 0]) = [(0, 2), (2, 0)] := by
  refine ⟨⟨by decide, by simp⟩, by decide⟩

/-! ### C52 -/

theorem uniqueColumn_fold (r : List Nat) (m : Nat → Bool) (c : Nat) :
    (r.foldl (fun (s : (Nat → Bool) × Nat) v =>
      let c := if s.1 v then s.2 + 1 else s.2
      ((fun k => if k = v then false else s.1 k), c)) (m, c)).2 = c + (r.toFinset.filter fun k => m k).card := by
  induction r generalizing m c with
  | nil => simp
  | cons v r ih =>
    rw [List.foldl_cons, ih, List.toFinset_cons]
    cases hv : m v
    · have e : (r.toFinset.filter fun k => (if k = v then false else m k) = true)
          = (insert v r.toFinset).filter fun k => m k = true := by
        ext k
        simp only [Finset.mem_filter, Finset.mem_insert]
        by_cases hk : k = v
        · subst hk; simp [hv]
        · simp [hk]
      simp only [hv, Bool.false_eq_true, if_false, e]
    · have e : ((insert v r.toFinset).filter fun k => m k = true)
          = insert v (r.toFinset.filter fun k => (if k = v then false else m k) = true) := by
        ext k
        simp only [Finset.mem_filter, Finset.mem_insert]
        by_cases hk : k = v
        · subst hk; simp [hv]
        · simp [hk]
      simp only [hv, if_true, e]
      rw [Finset.card_insert_of_notMem (by simp)]
      omega

/-- C52: for each cell (column along axis 0) the result is the number of different values. -/
theorem C52_unique (col : List Nat) : uniqueColumn col = col.dedup.length := by
  rw [← List.toFinset_card_of_nodup (List.nodup_dedup col), show col.dedup.toFinset = col.toFinset by ext; simp]
  cases col with
  | nil => rfl
  | cons a r =>
    unfold uniqueColumn
    refine (uniqueColumn_fold r _ 1).trans ?_
    rw [List.toFinset_cons]
    have e : insert a r.toFinset
        = insert a (r.toFinset.filter fun k => (if k = a then false else true) = true) := by
      ext k
      simp only [Finset.mem_filter, Finset.mem_insert]
      by_cases hk : k = a <;> simp [hk]
    rw [e, Finset.card_insert_of_notMem (by simp)]
    omega

example : uniqueColumn [3, 1, 3, 2, 1] = 3 := by decide

/-! ### C51 -/

theorem roll1_eq_rotate (l : List E) : roll1 l = l.rotate (l.length - 1) := by
  rcases List.eq_nil_or_concat l with rfl | ⟨r, z, rfl⟩
  · rfl
  · simp [roll1, List.rotate_eq_drop_append_take]

theorem dot_rotate (x y : List K) (h : x.length = y.length) (n : Nat) : dot (x.rotate n) (y.rotate n) = dot x y := by
  unfold dot
  rw [← List.zipWith_rotate_distrib _ _ _ _ h]
  exact (List.rotate_perm _ n).sum_eq

theorem dot_comm (x y : List K) : dot x y = dot y x := by
  unfold dot
  rw [List.zipWith_comm]
  congr 2
  funext a b
  ring

theorem dot_reverse (x y : List K) (h : x.length = y.length) : dot x.reverse y.reverse = dot x y := by
  unfold dot
  rw [← List.reverse_zipWith h]
  exact (List.reverse_perm _).sum_eq

/-- C51: the start corner does not matter. -/
theorem C51_rotation (x y : List K) (h : x.length = y.length) (n : Nat) :
    polygonArea (x.rotate n) (y.rotate n) = polygonArea x y := by
  unfold polygonArea
  have e : ∀ l : List K, roll1 (l.rotate n) = (roll1 l).rotate n := by
    intro l
    rw [roll1_eq_rotate, roll1_eq_rotate, List.rotate_rotate, List.rotate_rotate, List.length_rotate, Nat.add_comm]
  rw [e, e, dot_rotate _ _ (by rw [roll1_eq_rotate, List.length_rotate, h]),
    dot_rotate _ _ (by rw [roll1_eq_rotate, List.length_rotate, h])]

/-- C51: the orientation does not matter. -/
theorem C51_reverse (x y : List K) (h : x.length = y.length) :
    polygonArea x.reverse y.reverse = polygonArea x y := by
  have key : ∀ a b : List K, a.length = b.length → dot a.reverse (roll1 b.reverse) = dot b (roll1 a) := by
    intro a b hab
    rcases Nat.eq_zero_or_pos b.length with h0 | h0
    · have hb : b = [] := List.eq_nil_of_length_eq_zero h0
      have ha : a = [] := List.eq_nil_of_length_eq_zero (by omega)
      subst hb ha; rfl
    · rw [roll1_eq_rotate, List.length_reverse, List.rotate_reverse, dot_reverse _ _ (by simp [hab]),
        ← dot_rotate _ _ (by simp [hab]) (b.length - 1), List.rotate_rotate, roll1_eq_rotate, hab]
      have : b.rotate (b.length - (b.length - 1) % b.length + (b.length - 1)) = b := by
        rw [Nat.mod_eq_of_lt (by omega), show b.length - (b.length - 1) + (b.length - 1) = b.length by omega,
          List.rotate_length]
      rw [this, dot_comm]
  unfold polygonArea
  rw [key x y h, key y x h.symm, abs_sub_comm]

theorem dot_shift (x y : List K) (h : x.length = y.length) (a b : K) :
    dot (x.map (· + a)) (y.map (· + b)) = dot x y + b * x.sum + a * y.sum + x.length * (a * b) := by
  unfold dot
  induction x generalizing y with
  | nil => cases y with
    | nil => simp
    | cons _ _ => simp at h
  | cons c r ih => cases y with
    | nil => simp at h
    | cons d s =>
      simp only [List.map_cons, List.zipWith_cons_cons, List.sum_cons, List.length_cons]
      rw [ih s (by simpa using h)]
      push_cast
      ring

/-- C51: translation does not matter. -/
theorem C51_translation (x y : List K) (h : x.length = y.length) (a b : K) :
    polygonArea (x.map (· + a)) (y.map (· + b)) = polygonArea x y := by
  unfold polygonArea
  have e : ∀ (l : List K) (c : K), roll1 (l.map (· + c)) = (roll1 l).map (· + c) := by
    intro l c
    rw [roll1_eq_rotate, roll1_eq_rotate, List.length_map, List.map_rotate]
  have hs : ∀ l : List K, (roll1 l).sum = l.sum := by
    intro l
    rw [roll1_eq_rotate]
    exact (List.rotate_perm _ _).sum_eq
  have hl : ∀ l : List K, (roll1 l).length = l.length := by
    intro l
    rw [roll1_eq_rotate, List.length_rotate]
  rw [e, e, dot_shift _ _ (by rw [hl, h]), dot_shift _ _ (by rw [hl, h]), hs, hs, h]
  congr 2
  ring

/-- C51: the area is not negative. -/
theorem C51_nonneg (x y : List K) : 0 ≤ polygonArea x y := by
  unfold polygonArea
  have := abs_nonneg (dot x (roll1 y) - dot y (roll1 x))
  linarith

/-- C51: for a triangle the result is the area of the triangle (half of the absolute determinant of two edges). -/
theorem C51_triangle (x1 x2 x3 y1 y2 y3 : K) :
    polygonArea [x1, x2, x3] [y1, y2, y3] = |(x2 - x1) * (y3 - y1) - (x3 - x1) * (y2 - y1)| / 2 := by
  have : dot [x1, x2, x3] (roll1 [y1, y2, y3]) - dot [y1, y2, y3] (roll1 [x1, x2, x3])
      = -((x2 - x1) * (y3 - y1) - (x3 - x1) * (y2 - y1)) := by
    simp [dot, roll1]; ring
  unfold polygonArea
  rw [this, abs_neg]
  ring

/-- Signed double area of a triangle. -/
def triangle2 (p q r : K × K) : K := (q.1 - p.1) * (r.2 - p.2) - (r.1 - p.1) * (q.2 - p.2)

/-- Signed double area of the fan of triangles (p, l₀, l₁), (p, l₁, l₂), … -/
def fan2 (p : K × K) : List (K × K) → K
  | q :: r :: l => triangle2 p q r + fan2 p (r :: l)
  | _ => 0

/-- C51: for any polygon the result is half of the absolute sum of the signed areas of the triangles of a fan from one
corner, i.e. the area of the polygon. -/
theorem C51_triangulation (p : K × K) (l : List (K × K)) :
    polygonArea ((p :: l).map Prod.fst) ((p :: l).map Prod.snd) = |fan2 p l| / 2 := by
  -- sum over an open chain
  have chain : ∀ (l : List (K × K)) (a z : K × K), l.getLast? = some z →
      dot (l.map Prod.fst) ((a :: l.dropLast).map Prod.snd) - dot (l.map Prod.snd) ((a :: l.dropLast).map Prod.fst)
        + (p.1 * z.2 - p.2 * z.1)
      = (match l with | q :: _ => q.1 * a.2 - q.2 * a.1 + (p.1 * q.2 - p.2 * q.1) | [] => 0) - fan2 p l := by
    intro l
    induction l with
    | nil => intro a z h; simp at h
    | cons q r ih =>
      intro a z hz
      cases r with
      | nil =>
        simp at hz
        subst hz
        simp [dot, fan2]
      | cons q' r' =>
        rw [List.getLast?_cons_cons] at hz
        have := ih q z hz
        simp only [dot, List.map_cons, List.dropLast_cons₂, List.zipWith_cons_cons, List.sum_cons, fan2, triangle2] at this ⊢
        linear_combination this
  have main : dot ((p :: l).map Prod.fst) (roll1 ((p :: l).map Prod.snd)) - dot ((p :: l).map Prod.snd) (roll1 ((p :: l).map Prod.fst))
      = - fan2 p l := by
    cases l with
    | nil => simp [dot, roll1, fan2]; ring
    | cons q r =>
      obtain ⟨z, hz⟩ : ∃ z, (q :: r).getLast? = some z := ⟨_, List.getLast?_eq_some_getLast (by simp)⟩
      have c := chain (q :: r) p z hz
      have e : ∀ f : K × K → K, roll1 ((p :: q :: r).map f) = f z :: (p :: (q :: r).dropLast).map f := by
        intro f
        unfold roll1
        rw [List.getLast?_map, List.getLast?_cons_cons, hz]
        simp [List.map_dropLast]
      rw [e, e]
      simp only [dot, List.map_cons, List.zipWith_cons_cons, List.sum_cons] at c ⊢
      linear_combination c
  unfold polygonArea
  rw [main, abs_neg]
  ring

example : polygonArea ([0, 3, 3, 0] : List ℚ) [0, 0, 2, 2] = 6 := by
  norm_num [polygonArea, dot, roll1]

/-! ### C48 -/

theorem cumsum_length (l : List Nat) : (cumsum l).length = l.length := by simp [cumsum]

theorem cumsum_getElem (l : List Nat) (i : Nat) (h : i < (cumsum l).length) : (cumsum l)[i] = (l.take (i + 1)).sum := by
  simp [cumsum]

theorem take_sum_mono (l : List Nat) {i j : Nat} (h : i ≤ j) : (l.take i).sum ≤ (l.take j).sum := by
  have : l.take j = l.take i ++ (l.take j).drop i := by
    conv => lhs; rw [← List.take_append_drop i (l.take j), List.take_take, Nat.min_eq_left h]
  rw [this, List.sum_append]
  omega

/-- first index of a non-decreasing list whose value satisfies an upward closed condition -/
theorem unique_find (a : List K) (hmono : a.Pairwise (· ≤ ·)) (p : K → Bool) :
    match (npUnique a).find? (fun u => p u.1) with
    | some u => ∃ h : u.2 < a.length, p a[u.2] = true ∧ ∀ j (hj : j < a.length), j < u.2 → p a[j] = false
    | none => ∀ v ∈ a, p v = false := by
  have hsorted : ((a.mergeSort (fun x y => decide (x ≤ y))).dedup).Pairwise (· ≤ ·) := by
    refine List.Pairwise.sublist (List.dedup_sublist _) ?_
    have := List.pairwise_mergeSort (le := fun x y : K => decide (x ≤ y)) (by
      intro x y z; simpa using le_trans) (by intro x y; simpa using le_total x y) a
    simpa using this
  have hmem : ∀ v, v ∈ (a.mergeSort (fun x y => decide (x ≤ y))).dedup ↔ v ∈ a := by
    intro v
    rw [List.mem_dedup, List.mem_mergeSort]
  have hfind : (npUnique a).find? (fun u => p u.1)
      = (((a.mergeSort (fun x y => decide (x ≤ y))).dedup).find? p).map fun v => (v, a.idxOf v) := by
    unfold npUnique
    rw [List.find?_map]
    rfl
  rw [hfind]
  cases hf : ((a.mergeSort (fun x y => decide (x ≤ y))).dedup).find? p with
  | none =>
    rw [List.find?_eq_none] at hf
    intro v hv
    simpa using hf v ((hmem v).mpr hv)
  | some v =>
    rw [List.find?_eq_some_iff_append] at hf
    obtain ⟨hp, as, bs, hl, has⟩ := hf
    have hva : v ∈ a := (hmem v).mp (by rw [hl]; simp)
    have hidx : a.idxOf v < a.length := List.idxOf_lt_length_iff.mpr hva
    simp only [Option.map_some]
    refine ⟨hidx, ?_, ?_⟩
    · rw [List.getElem_idxOf hidx]; exact hp
    · intro j hj hji
      have hne : a[j] ≠ v := by
        intro he
        have := List.not_of_lt_findIdx (p := fun x => x == v) (xs := a) (i := j) hji
        simp [he] at this
      have hle : a[j] ≤ v := by
        have := List.pairwise_iff_getElem.mp hmono j (a.idxOf v) hj hidx hji
        rwa [List.getElem_idxOf hidx] at this
      have hm : a[j] ∈ as ++ v :: bs := by rw [← hl]; exact (hmem _).mpr (List.getElem_mem hj)
      rw [List.mem_append, List.mem_cons] at hm
      rcases hm with hm | hm | hm
      · simpa using has _ hm
      · exact absurd hm hne
      · rw [hl, List.pairwise_append, List.pairwise_cons] at hsorted
        exact absurd (le_antisymm hle (hsorted.2.1.1 _ hm)) hne

theorem cumsum_getLast (l : List Nat) (h : l ≠ []) : (cumsum l).getLast? = some l.sum := by
  have hl : 0 < l.length := List.length_pos_of_ne_nil h
  rw [List.getLast?_eq_getElem?, cumsum_length, List.getElem?_eq_getElem (by rw [cumsum_length]; omega), cumsum_getElem,
    show l.length - 1 + 1 = l.length by omega, List.take_length]

/-- The normalised cumulative distribution: the entries up to bin `i` as fraction of all entries, increasing. -/
theorem normcdf_spec (hist : List Nat) (hne : hist ≠ []) : ∃ cdf : List K, normcdf hist = some cdf ∧
    cdf.length = hist.length ∧ (∀ i (h : i < cdf.length), ((hist.take (i + 1)).sum : K) = cdf[i] * hist.sum) ∧
    (∀ v ∈ cdf, v ≤ 1) ∧ (hist.sum = 0 → ∀ v ∈ cdf, v = 0) ∧ cdf.Pairwise (· ≤ ·) := by
  -- the normalised cdf
  obtain ⟨cdf, hcdf, hlen, hget⟩ : ∃ cdf : List K, normcdf hist = some cdf ∧ cdf.length = hist.length ∧
      ∀ i (h : i < cdf.length), ((hist.take (i + 1)).sum : K) = cdf[i] * hist.sum := by
    unfold normcdf
    rw [cumsum_getLast hist hne]
    simp only []
    by_cases h0 : hist.sum = 0
    · rw [if_pos h0]
      refine ⟨_, rfl, by simp [cumsum_length], ?_⟩
      intro i h
      have := take_sum_mono hist (show i + 1 ≤ hist.length by rw [List.length_map, cumsum_length] at h; omega)
      rw [List.take_length] at this
      rw [h0]
      have : (hist.take (i + 1)).sum = 0 := by omega
      simp [this]
    · rw [if_neg h0]
      refine ⟨_, rfl, by simp [cumsum_length], ?_⟩
      intro i h
      have hK : (hist.sum : K) ≠ 0 := by exact_mod_cast h0
      rw [List.getElem_map, cumsum_getElem]
      field_simp
  have hzero : hist.sum = 0 → ∀ v ∈ cdf, v = 0 := by
    intro h0 v hv
    unfold normcdf at hcdf
    rw [cumsum_getLast hist hne] at hcdf
    simp only [h0, if_true, Option.some.injEq] at hcdf
    subst hcdf
    obtain ⟨i, hi, rfl⟩ := List.getElem_of_mem hv
    rw [List.getElem_map, cumsum_getElem]
    rw [List.length_map, cumsum_length] at hi
    have := take_sum_mono hist (show i + 1 ≤ hist.length by omega)
    rw [List.take_length, h0] at this
    exact_mod_cast Nat.le_zero.mp this
  refine ⟨cdf, hcdf, hlen, hget, ?_, ?_, ?_⟩
  · intro v hv
    obtain ⟨i, hi, rfl⟩ := List.getElem_of_mem hv
    by_cases h0 : hist.sum = 0
    · rw [hzero h0 _ hv]; exact zero_le_one
    · have hK : (0 : K) < hist.sum := by exact_mod_cast Nat.pos_of_ne_zero h0
      have h1 := hget i hi
      have h3 : ((hist.take (i + 1)).sum : K) ≤ hist.sum := by
        have := take_sum_mono hist (show i + 1 ≤ hist.length by omega)
        rw [List.take_length] at this
        exact_mod_cast this
      rw [h1] at h3
      exact le_of_mul_le_mul_right (by rw [one_mul]; exact h3) hK
  · exact hzero
  have hmono : cdf.Pairwise (· ≤ ·) := by
    rw [List.pairwise_iff_getElem]
    intro i j hi hj hij
    by_cases h0 : hist.sum = 0
    · -- all values zero
      unfold normcdf at hcdf
      rw [cumsum_getLast hist hne] at hcdf
      simp only [h0, if_true, Option.some.injEq] at hcdf
      subst hcdf
      rw [List.getElem_map, List.getElem_map, cumsum_getElem, cumsum_getElem]
      exact_mod_cast take_sum_mono hist (by omega)
    · have hK : (0 : K) < hist.sum := by exact_mod_cast Nat.pos_of_ne_zero h0
      have h1 := hget i hi
      have h2 := hget j hj
      have h3 : ((hist.take (i + 1)).sum : K) ≤ (hist.take (j + 1)).sum := by
        exact_mod_cast take_sum_mono hist (by omega)
      rw [h1, h2] at h3
      exact le_of_mul_le_mul_right h3 hK
  exact hmono

/-- C48: with `lp`, `hp` the borders of the range that is kept (all other bins are masked): the entries below the range
are less than the fraction `prob[0]` of all entries (or none), the entries above are less than the fraction
`1 - prob[1]` (or none). -/
theorem C48_not_more_than_requested (hist : List Nat) (p0 p1 : K) (hne : hist ≠ []) :
    ∃ lp hp, quantileIndices hist p0 p1 = some (lp, hp) ∧
      (∀ i, i ∈ keptBins hist lp hp ↔ i < hist.length ∧ lp ≤ i ∧ i ≤ hp) ∧
      ((hist.take lp).sum = 0 ∨ ((hist.take lp).sum : K) < p0 * hist.sum) ∧
      ((hist.drop (hp + 1)).sum = 0 ∨ ((hist.drop (hp + 1)).sum : K) < (1 - p1) * hist.sum) ∧
      (p0 ≤ p1 → lp ≤ hp) := by
  have hkept : ∀ lp hp i, i ∈ keptBins hist lp hp ↔ i < hist.length ∧ lp ≤ i ∧ i ≤ hp := by
    intro lp hp i
    simp only [keptBins, List.mem_filter, List.mem_range, Bool.and_eq_true, decide_eq_true_eq]
    omega
  obtain ⟨cdf, hcdf, hlen, hget, -, -, hmono⟩ := normcdf_spec (K := K) hist hne
  have uh := unique_find cdf hmono (fun v => decide (v > p1))
  have ul := unique_find cdf hmono (fun v => decide (v ≥ p0))
  have hall : (hist.drop (hist.length + 1)).sum = 0 := by
    rw [List.drop_eq_nil_of_le (by omega)]; rfl
  unfold quantileIndices
  rw [hcdf]
  simp only [Option.map_some]
  cases hh : (npUnique cdf).find? (fun u => decide (u.1 > p1)) with
  | none =>
    exact ⟨0, hist.length, rfl, hkept _ _, .inl (by simp), .inl hall, fun _ => Nat.zero_le _⟩
  | some hp =>
    cases hlw : (npUnique cdf).find? (fun u => decide (u.1 ≥ p0)) with
    | none =>
      exact ⟨0, hist.length, rfl, hkept _ _, .inl (by simp), .inl hall, fun _ => Nat.zero_le _⟩
    | some lp =>
      rw [hh] at uh
      rw [hlw] at ul
      obtain ⟨hplt, hp1, hp2⟩ := uh
      obtain ⟨lplt, lp1, lp2⟩ := ul
      simp only [decide_eq_true_eq, decide_eq_false_iff_not, not_lt, not_le, gt_iff_lt, ge_iff_le] at hp1 hp2 lp1 lp2
      refine ⟨lp.2, hp.2, rfl, hkept _ _, ?_, ?_, ?_⟩
      · by_cases hs0 : (hist.take lp.2).sum = 0
        · exact .inl hs0
        · right
          have hl0 : lp.2 ≠ 0 := by intro h; rw [h] at hs0; simp at hs0
          have hlt := lp2 (lp.2 - 1) (by omega) (by omega)
          have hg := hget (lp.2 - 1) (by omega)
          rw [show lp.2 - 1 + 1 = lp.2 by omega] at hg
          have hpos : (0 : K) < hist.sum := by
            have := take_sum_mono hist (show lp.2 ≤ hist.length by omega)
            rw [List.take_length] at this
            exact_mod_cast (show 0 < hist.sum by omega)
          rw [hg]
          exact mul_lt_mul_of_pos_right hlt hpos
      · by_cases hs0 : (hist.drop (hp.2 + 1)).sum = 0
        · exact .inl hs0
        · right
          have hg := hget hp.2 hplt
          have hsplit : (hist.take (hp.2 + 1)).sum + (hist.drop (hp.2 + 1)).sum = hist.sum := by
            rw [← List.sum_append, List.take_append_drop]
          have hpos : (0 : K) < hist.sum := by exact_mod_cast (show 0 < hist.sum by omega)
          have hK : ((hist.take (hp.2 + 1)).sum : K) + (hist.drop (hp.2 + 1)).sum = hist.sum := by exact_mod_cast hsplit
          have := mul_lt_mul_of_pos_right hp1 hpos
          rw [hg] at hK
          linarith
      · intro hle
        by_contra hcon
        have := lp2 hp.2 hplt (by omega)
        linarith

/-- C48 (partial): the returned indices are valid if the quantile `prob[1]` is below 1, `prob[0]` is at most 1 and the
histogram has at least one entry. Otherwise they need not be, see `C48_returned_index_invalid`. -/
theorem C48_returned_indices_partial (hist : List Nat) (p0 p1 : K) (hp1 : p1 < 1) (hp0 : p0 ≤ 1) (hpos : 0 < hist.sum) :
    ∃ lp hp, quantileIndices hist p0 p1 = some (lp, hp) ∧ ∀ i ∈ returnedIndices lp hp, i < hist.length := by
  have hne : hist ≠ [] := by rintro rfl; simp at hpos
  obtain ⟨cdf, hcdf, hlen, hget, -, -, hmono⟩ := normcdf_spec (K := K) hist hne
  have hl := List.length_pos_of_ne_nil hne
  have hlast : (1 : K) ∈ cdf := by
    have := hget (hist.length - 1) (by omega)
    rw [show hist.length - 1 + 1 = hist.length by omega, List.take_length] at this
    have hK : (hist.sum : K) ≠ 0 := by exact_mod_cast hpos.ne'
    have h1 : cdf[hist.length - 1] = 1 := mul_right_cancel₀ hK (by rw [one_mul]; exact this.symm)
    rw [← h1]
    exact List.getElem_mem _
  have uh := unique_find cdf hmono (fun v => decide (v > p1))
  have ul := unique_find cdf hmono (fun v => decide (v ≥ p0))
  unfold quantileIndices
  rw [hcdf]
  simp only [Option.map_some]
  cases hh : (npUnique cdf).find? (fun u => decide (u.1 > p1)) with
  | none =>
    rw [hh] at uh
    exact absurd (uh 1 hlast) (by simpa using hp1)
  | some hp =>
    cases hlw : (npUnique cdf).find? (fun u => decide (u.1 ≥ p0)) with
    | none =>
      rw [hlw] at ul
      exact absurd (ul 1 hlast) (by simpa using hp0)
    | some lp =>
      rw [hh] at uh
      obtain ⟨hplt, -, -⟩ := uh
      refine ⟨lp.2, hp.2, rfl, fun i hi => ?_⟩
      simp only [returnedIndices, List.mem_range'_1] at hi
      omega

/-- C48 is false for the returned indices: without entries (and `prob[1] ≥ 0`), or for `prob[1] ≥ 1`, the number of
bins, which is not a valid index, is among them. -/
theorem C48_returned_index_invalid (hist : List Nat) (p0 p1 : K) (hne : hist ≠ [])
    (h : hist.sum = 0 ∧ 0 ≤ p1 ∨ 1 ≤ p1) :
    quantileIndices hist p0 p1 = some (0, hist.length) ∧ hist.length ∈ returnedIndices 0 hist.length := by
  obtain ⟨cdf, hcdf, hlen, -, h1, h0, hmono⟩ := normcdf_spec (K := K) hist hne
  refine ⟨?_, by simp [returnedIndices, List.mem_range'_1]⟩
  have uh := unique_find cdf hmono (fun v => decide (v > p1))
  unfold quantileIndices
  rw [hcdf]
  simp only [Option.map_some]
  cases hh : (npUnique cdf).find? (fun u => decide (u.1 > p1)) with
  | none => rfl
  | some hp =>
    rw [hh] at uh
    obtain ⟨hlt, h2, -⟩ := uh
    simp only [decide_eq_true_eq] at h2
    rcases h with ⟨hs, hp1⟩ | hp1
    · rw [h0 hs _ (List.getElem_mem hlt)] at h2
      exact absurd h2 (not_lt.mpr hp1)
    · exact absurd h2 (not_lt.mpr ((h1 _ (List.getElem_mem hlt)).trans hp1))

/-- C48: an empty histogram raises an IndexError. -/
theorem C48_empty (p0 p1 : K) : quantileIndices [] p0 p1 = none := rfl

example : ([1, 5, 90, 3, 1] : List Nat) ≠ [] ∧ 0 < ([1, 5, 90, 3, 1] : List Nat).sum ∧ (19 / 20 : ℚ) < 1 :=
  ⟨by decide, by decide, by norm_num⟩

end BTA.Props
