import Verif.Model.ResidualFit
import Verif.Spec.ResidualFit
import Verif.Lemmas.Binning
import Mathlib.Tactic.Ring
import Mathlib.Tactic.Linarith
import Mathlib.Tactic.FieldSimp
import Mathlib.Tactic.Positivity
import Mathlib.Algebra.Order.Floor.Ring
import Mathlib.Algebra.Order.Ring.Abs
import Mathlib.Algebra.Ring.Int.Parity
/- Lemmas for Verif.Props.ResidualFit. -/
namespace BTA.ResFit
open BTA.Binning BTA.HistStat BTA.Spec BTA.Spec.ResFit

variable {K : Type} [Field K] [LinearOrder K] [IsStrictOrderedRing K] [FloorRing K]

/-! ### Edges -/

omit [LinearOrder K] [IsStrictOrderedRing K] [FloorRing K] in
theorem linspace_get (a b : K) (n i : Nat) : (linspace a b n)[i]? = if i < n + 1 then some (a + (i : K) * ((b - a) / n)) else none := by
  unfold linspace
  rw [List.getElem?_map]
  by_cases h : i < n + 1
  · simp [h]
  · rw [if_neg h, List.getElem?_eq_none (by simpa using h)]; rfl

omit [FloorRing K] in
theorem linspace_ok {a b : K} {n : Nat} (hs : a < b) (hn : 0 < n) : ValidEdges (linspace a b n) := by
  refine ⟨by simp [linspace]; omega, ?_⟩
  unfold linspace
  rw [List.pairwise_map]
  refine List.Pairwise.imp ?_ List.pairwise_lt_range
  intro i j hij
  have h1 : (i : K) < j := by exact_mod_cast hij
  have h2 : 0 < (b - a) / (n : K) := by
    have : (0 : K) < n := by exact_mod_cast hn
    have : 0 < b - a := by linarith
    positivity
  nlinarith

omit [FloorRing K] in
/-- A value has a bin iff it lies within the outer edges. -/
theorem linspace_bin {a b : K} {n : Nat} (hs : a < b) (hn : 0 < n) (v : K) : (binIndex (linspace a b n) v).isSome ↔ a ≤ v ∧ v ≤ b := by
  have hnK : (n : K) ≠ 0 := by exact_mod_cast hn.ne'
  have hh : (linspace a b n).head? = some a := by
    rw [List.head?_eq_getElem?, linspace_get]; simp
  have hl : (linspace a b n).getLast? = some b := by
    have hlen : (linspace a b n).length = n + 1 := by simp [linspace]
    rw [List.getLast?_eq_getElem?, hlen, linspace_get]
    simp only [Nat.add_sub_cancel, Nat.lt_add_one, if_true]
    congr 1; field_simp; ring
  have hlen : ¬ (linspace a b n).length < 2 := by simp [linspace]; omega
  unfold binIndex
  rw [hh, hl]
  dsimp only
  rw [if_neg hlen]
  by_cases h1 : v = b
  · rw [if_pos h1]; subst h1; simp [hs.le]
  · rw [if_neg h1]
    by_cases h2 : v < a ∨ b < v
    · rw [if_pos h2]
      constructor
      · intro h; exact absurd h (by simp)
      · rintro ⟨p, q⟩; rcases h2 with h2 | h2
        · exact absurd p (not_le.mpr h2)
        · exact absurd q (not_le.mpr h2)
    · rw [if_neg h2]
      rw [not_or, not_lt, not_lt] at h2
      simp [h2]

/-! ### Width -/

theorem mod2_int (n : ℤ) : mod2 (n : K) = 0 ↔ Even n := by
  unfold mod2
  constructor
  · intro h
    have h1 : (n : K) = ((2 * ⌊(n : K) / 2⌋ : ℤ) : K) := by push_cast; linarith
    have h2 : n = 2 * ⌊(n : K) / 2⌋ := by exact_mod_cast h1
    exact ⟨⌊(n : K) / 2⌋, by omega⟩
  · rintro ⟨k, rfl⟩
    have h1 : ((k + k : ℤ) : K) / 2 = (k : K) := by push_cast; ring
    rw [h1, Int.floor_intCast]
    push_cast; ring

/-- Half of the width in pixels. -/
theorem fullWidth_eq {size : K} (hs : 0 < size) (fwhm : K) :
    ∃ k : Nat, fullWidth size fwhm = 2 * ((k : K) * size) ∧ 3 ≤ k ∧ 3 * fwhm ≤ (k : K) * size ∧
      (k : K) * size < max (3 * size) (3 * fwhm) + size := by
  have hM : max (6 * size) (size * (⌈6 * fwhm / size⌉ : K)) = ((max 6 ⌈6 * fwhm / size⌉ : ℤ) : K) * size := by
    rw [Int.cast_max, max_mul_of_nonneg _ _ hs.le]
    push_cast
    rw [mul_comm size]
  have h6 : 6 * fwhm ≤ ((max 6 ⌈6 * fwhm / size⌉ : ℤ) : K) * size := by
    rw [← hM]
    refine le_trans ?_ (le_max_right _ _)
    have := Int.le_ceil (6 * fwhm / size)
    rw [div_le_iff₀ hs] at this
    linarith
  have h7 : ((max 6 ⌈6 * fwhm / size⌉ : ℤ) : K) * size < max (6 * size) (6 * fwhm) + size := by
    rw [← hM]
    refine max_lt ?_ ?_
    · have := le_max_left (6 * size) (6 * fwhm); linarith
    · have := Int.ceil_lt_add_one (6 * fwhm / size)
      have h : (⌈6 * fwhm / size⌉ : K) * size < (6 * fwhm / size + 1) * size := mul_lt_mul_of_pos_right this hs
      have h' : (6 * fwhm / size + 1) * size = 6 * fwhm + size := by field_simp
      rw [h'] at h
      have := le_max_right (6 * size) (6 * fwhm)
      linarith
  have h8 : max (6 * size) (6 * fwhm) = 2 * max (3 * size) (3 * fwhm) := by
    rw [mul_max_of_nonneg _ _ (by norm_num : (0:K) ≤ 2)]; ring_nf
  have h9 : 6 ≤ max 6 ⌈6 * fwhm / size⌉ := le_max_left _ _
  unfold fullWidth
  dsimp only
  rw [hM]
  generalize max 6 ⌈6 * fwhm / size⌉ = M at *
  have hdiv : (M : K) * size / size = M := by field_simp
  rw [hdiv]
  rw [h8] at h7
  by_cases hev : Even M
  · rw [if_neg (by rw [not_not, mod2_int]; exact hev)]
    obtain ⟨j, hj⟩ := hev
    refine ⟨j.toNat, ?_, by omega, ?_, ?_⟩
    all_goals
      have hjn : ((j.toNat : Nat) : K) = (j : K) := by
        have : ((j.toNat : Nat) : ℤ) = j := Int.toNat_of_nonneg (by omega)
        exact_mod_cast congrArg (Int.cast : ℤ → K) this
      rw [hjn]
      rw [hj] at h6 h7
      push_cast at h6 h7
    · rw [hj]; push_cast; ring
    · linarith
    · linarith
  · rw [if_pos (by rw [Ne, mod2_int]; exact hev)]
    rw [Int.not_even_iff_odd] at hev
    obtain ⟨j, hj⟩ := hev
    refine ⟨(j + 1).toNat, ?_, by omega, ?_, ?_⟩
    all_goals
      have hjn : (((j + 1).toNat : Nat) : K) = (j : K) + 1 := by
        have : (((j + 1).toNat : Nat) : ℤ) = j + 1 := Int.toNat_of_nonneg (by omega)
        have := congrArg (Int.cast : ℤ → K) this
        push_cast at this
        exact_mod_cast this
      rw [hjn]
      rw [hj] at h6 h7
      push_cast at h6 h7
    · rw [hj]; push_cast; ring
    · linarith
    · linarith

theorem edgesAround_bins {size : K} (hs : 0 < size) {m : Nat} (hm : 0 < m) (center fwhm : K) :
    ∃ k : Nat, PixelBins (edgesAround size (some m) center fwhm) center size k m ∧ ValidEdges (edgesAround size (some m) center fwhm) ∧
      (∀ v, (binIndex (edgesAround size (some m) center fwhm) v).isSome ↔ |v - center| ≤ (k : K) * size) ∧
      3 ≤ k ∧ 3 * fwhm ≤ (k : K) * size ∧ (k : K) * size < max (3 * size) (3 * fwhm) + size := by
  obtain ⟨k, hk, h3, h4, h5⟩ := fullWidth_eq hs fwhm
  have hkp : (0 : K) < k := by exact_mod_cast (show 0 < k by omega)
  have hmp : (0 : K) < m := by exact_mod_cast hm
  have hn : ⌊(m : K) * fullWidth size fwhm / size⌋.toNat = 2 * k * m := by
    have : (m : K) * fullWidth size fwhm / size = ((2 * k * m : Nat) : K) := by
      rw [hk]; push_cast; field_simp
    rw [this, Int.floor_natCast]; rfl
  have hw : 1 / 2 * fullWidth size fwhm = (k : K) * size := by rw [hk]; ring
  have hlt : center - (k : K) * size < center + (k : K) * size := by
    have : 0 < (k : K) * size := by positivity
    linarith
  have hnp : 0 < 2 * k * m := by
    have : 0 < k := by omega
    positivity
  unfold edgesAround
  dsimp only
  rw [hn, hw]
  refine ⟨k, ⟨by simp [linspace], ?_⟩, linspace_ok hlt hnp, ?_, h3, h4, h5⟩
  · intro i e he
    rw [linspace_get] at he
    split at he
    · rw [← Option.some.inj he]
      push_cast
      field_simp
      ring
    · exact absurd he (by simp)
  · intro v
    rw [linspace_bin hlt hnp, abs_le]
    constructor
    · rintro ⟨a, b⟩; constructor <;> linarith
    · rintro ⟨a, b⟩; constructor <;> linarith

/-! ### Equal residuals -/

omit [Field K] [IsStrictOrderedRing K] [FloorRing K] in
theorem foldl_min_same (v : K) (n : Nat) : (List.replicate n v).foldl min v = v := by
  induction n with
  | zero => rfl
  | succ n ih => rw [List.replicate_succ, List.foldl_cons, min_self, ih]

omit [Field K] [IsStrictOrderedRing K] [FloorRing K] in
theorem foldl_max_same (v : K) (n : Nat) : (List.replicate n v).foldl max v = v := by
  induction n with
  | zero => rfl
  | succ n ih => rw [List.replicate_succ, List.foldl_cons, max_self, ih]

theorem searchEdges_same (f : Lib K) {size : K} (hs : 0 < size) {m : Nat} (hm : 0 < m) (v : K) (n : Nat) :
    searchEdges f size (some m) v (List.replicate n v) = [v - size / m, v, v + size / m] := by
  have hmK : (0 : K) < m := by exact_mod_cast hm
  have hw : 0 < size / (m : K) := by positivity
  unfold searchEdges
  dsimp only
  rw [foldl_min_same, foldl_max_same]
  generalize size / (m : K) = w at *
  unfold arange
  have : (v + 2 * w - (v - w)) / w = ((3 : Nat) : K) := by push_cast; field_simp; ring
  rw [this, Int.ceil_natCast]
  have hr : List.range ((3 : Nat) : ℤ).toNat = [0, 1, 2] := rfl
  rw [hr]
  simp only [List.map_cons, List.map_nil, Nat.cast_zero, Nat.cast_one, Nat.cast_ofNat]
  rw [show v - w + 0 * w = v - w by ring, show v - w + 1 * w = v by ring, show v - w + 2 * w = v + w by ring]

omit [FloorRing K] in
theorem histogram_same {w : K} (hw : 0 < w) (v : K) (n : Nat) : histogram [v - w, v, v + w] (List.replicate n v) = [0, n] := by
  have hb : binIndex [v - w, v, v + w] v = some 1 := by
    unfold binIndex
    simp only [List.head?_cons, List.getLast?_cons_cons, List.getLast?_singleton]
    rw [if_neg (by simp), if_neg (by linarith), if_neg (by rw [not_or, not_lt, not_lt]; constructor <;> linarith)]
    have a : v - w ≤ v := by linarith
    have b : ¬ v + w ≤ v := by rw [not_le]; linarith
    simp [hw.le, b, hw]
  unfold histogram
  simp only [List.length_cons, List.length_nil, Nat.add_one_sub_one, List.range_succ, List.range_zero, List.nil_append, List.cons_append,
    List.map_cons, List.map_nil, counts, Nat.zero_add]
  congr 1
  · rw [List.countP_eq_zero]
    intro x hx
    rw [List.eq_of_mem_replicate hx, hb]
    simp
  · congr 1
    have : (List.replicate n v).countP (fun r => decide (binIndex [v - w, v, v + w] r = some 1)) = (List.replicate n v).length := by
      rw [List.countP_eq_length]
      intro x hx
      rw [List.eq_of_mem_replicate hx, hb]
      simp
    rw [this, List.length_replicate]

omit [FloorRing K] in
theorem simplePeak_two (a b : K) {n : Nat} (hn : 0 < n) : simplePeak [a, b] ([0, n].map fun k : Nat => (k : K)) = .error .noPeak := by
  have hnK : (0 : K) < n := by exact_mod_cast hn
  have h1 : ¬ ((n : K) * (1 / 2) < 0) := by rw [not_lt]; positivity
  have h2 : (n : K) * (1 / 2) < n := by linarith
  have h1' : ¬ ((n : K) * 2⁻¹ < 0) := by rw [not_lt]; positivity
  have h2' : (n : K) * 2⁻¹ < n := by have : (2 : K)⁻¹ = 1 / 2 := by norm_num
                                     rw [this]; exact h2
  have e : argmax ([0, n].map fun k : Nat => (k : K)) = 1 := by
    simp [argmax, argmaxFrom, hn]
  unfold simplePeak
  rw [e]
  simp only [List.map_cons, List.map_nil, Nat.cast_zero]
  simp only [List.getElem?_cons_succ, List.getElem?_cons_zero, h1, h2, decide_true, decide_false]
  simp only [changes, peakOf, centres]
  simp
  split <;> simp_all

/-! ### Limits -/

omit [IsStrictOrderedRing K] [FloorRing K] in
theorem selectLeft_iff {xs : List K} (hx : xs.Pairwise (· < ·)) {l : K} (h : ∃ x ∈ xs, l ≤ x) {i : Nat} {x : K} (hi : xs[i]? = some x) :
    selectLeft xs (some l) ≤ i ↔ l ≤ x := by
  unfold selectLeft
  dsimp only
  cases hf : xs.findIdx? fun x => decide (l ≤ x) with
  | none =>
    obtain ⟨y, hy, hly⟩ := h
    rw [List.findIdx?_eq_none_iff] at hf
    have := hf y hy
    simp [hly] at this
  | some j =>
    rw [List.findIdx?_eq_some_iff_getElem] at hf
    obtain ⟨hj, hpj, hlt⟩ := hf
    obtain ⟨hil, hie⟩ := List.getElem?_eq_some_iff.mp hi
    rw [Option.getD_some]
    constructor
    · intro hle
      rcases Nat.lt_or_eq_of_le hle with hlt' | heq
      · have := List.pairwise_iff_getElem.mp hx j i hj hil hlt'
        simp only [decide_eq_true_eq] at hpj
        rw [hie] at this
        exact le_of_lt (lt_of_le_of_lt hpj this)
      · subst heq; rw [hie] at hpj; simpa using hpj
    · intro hl
      by_contra hc
      have := hlt i (by omega)
      rw [hie] at this
      simp [hl] at this

omit [IsStrictOrderedRing K] [FloorRing K] in
theorem selectLeft_none {xs : List K} {l : K} (h : ∀ x ∈ xs, x < l) : selectLeft xs (some l) = 0 := by
  unfold selectLeft
  dsimp only
  have : (xs.findIdx? fun x => decide (l ≤ x)) = none := by
    rw [List.findIdx?_eq_none_iff]
    intro x hx
    simpa using h x hx
  rw [this]; rfl

omit [IsStrictOrderedRing K] [FloorRing K] in
theorem selectRight_iff {xs : List K} (hx : xs.Pairwise (· < ·)) {r : K} (h : ∃ x ∈ xs, x ≤ r) {i : Nat} {x : K} (hi : xs[i]? = some x) :
    i < selectRight xs (some r) ↔ x ≤ r := by
  obtain ⟨hil, hie⟩ := List.getElem?_eq_some_iff.mp hi
  unfold selectRight
  dsimp only
  have hmem : ∀ j, j ∈ (List.range xs.length).filter (fun i => xs[i]?.any fun x => decide (x ≤ r)) ↔ ∃ y, xs[j]? = some y ∧ y ≤ r := by
    intro j
    rw [List.mem_filter, List.mem_range]
    constructor
    · rintro ⟨hj, hp⟩
      rw [List.getElem?_eq_getElem hj] at hp
      exact ⟨xs[j], List.getElem?_eq_getElem hj, by simpa using hp⟩
    · rintro ⟨y, hy, hyr⟩
      obtain ⟨hj, _⟩ := List.getElem?_eq_some_iff.mp hy
      exact ⟨hj, by rw [hy]; simpa using hyr⟩
  have hsort : ((List.range xs.length).filter (fun i => xs[i]?.any fun x => decide (x ≤ r))).Pairwise (· < ·) :=
    List.Pairwise.filter _ List.pairwise_lt_range
  cases hf : ((List.range xs.length).filter (fun i => xs[i]?.any fun x => decide (x ≤ r))).getLast? with
  | none =>
    obtain ⟨y, hy, hyr⟩ := h
    obtain ⟨j, hj⟩ := List.mem_iff_getElem?.mp hy
    have : j ∈ (List.range xs.length).filter (fun i => xs[i]?.any fun x => decide (x ≤ r)) := (hmem j).mpr ⟨y, hj, hyr⟩
    rw [List.getLast?_eq_none_iff] at hf
    rw [hf] at this
    exact absurd this (by simp)
  | some j =>
    dsimp only
    obtain ⟨pre, hpre⟩ := List.getLast?_eq_some_iff.mp hf
    have hjm := (hmem j).mp (by rw [hpre]; simp)
    obtain ⟨y, hy, hyr⟩ := hjm
    constructor
    · intro hlt
      rcases Nat.lt_or_eq_of_le (Nat.lt_succ_iff.mp hlt) with h1 | h1
      · have := lt_of_getElem? hx hi hy h1
        exact le_of_lt (lt_of_lt_of_le this hyr)
      · subst h1; rw [hi] at hy; rw [Option.some.inj hy]; exact hyr
    · intro hxr
      have him := (hmem i).mpr ⟨x, hi, hxr⟩
      rw [hpre] at him hsort
      rw [List.mem_append, List.mem_singleton] at him
      rcases him with him | him
      · have := (List.pairwise_append.mp hsort).2.2 i him j (by simp)
        omega
      · omega

omit [IsStrictOrderedRing K] [FloorRing K] in
theorem selectRight_none {xs : List K} {r : K} (h : ∀ x ∈ xs, r < x) : selectRight xs (some r) = xs.length := by
  unfold selectRight
  dsimp only
  have : (List.range xs.length).filter (fun i => xs[i]?.any fun x => decide (x ≤ r)) = [] := by
    rw [List.filter_eq_nil_iff]
    intro i hi
    rw [List.mem_range] at hi
    rw [List.getElem?_eq_getElem hi]
    simpa using h _ (List.getElem_mem hi)
  rw [this]; rfl

omit [IsStrictOrderedRing K] in
theorem mem_selected (bins : List (PosBin K)) (limit : Option (Option K × Option K)) (i : Nat) (b : PosBin K) :
    (b, i) ∈ selected bins limit ↔ bins[i]? = some b ∧ inRange bins limit i b = true ∧ b.mean.isSome = true := by
  unfold selected
  rw [List.mem_filter, List.mem_zipIdx_iff_getElem?, Bool.and_eq_true]

/-! ### Percentile -/

theorem percentile_replicate (q c : K) (n : Nat) (hn : 0 < n) (hq0 : 0 ≤ q) (hq : q ≤ 100) : percentile q (List.replicate n c) = c := by
  have hs : (List.replicate n c).insertionSort (· ≤ ·) = List.replicate n c := by
    have := List.perm_insertionSort (· ≤ ·) (List.replicate n c)
    exact List.perm_replicate.mp this
  have hget : ∀ k d, k < n → (List.replicate n c).getD k d = c := by
    intro k d hk
    rw [List.getD_eq_getElem?_getD, List.getElem?_replicate, if_pos hk]; rfl
  have hh : ∀ d, d = c → ∀ k, (List.replicate n c).getD k d = c := by
    intro d hd k
    rw [List.getD_eq_getElem?_getD, List.getElem?_replicate]
    split
    · rfl
    · exact hd
  unfold percentile
  dsimp only
  rw [hs, List.length_replicate]
  have hle : ((n - 1 : Nat) : K) * (q / 100) ≤ ((n - 1 : Nat) : K) := by
    have h1 : q / 100 ≤ 1 := by rw [div_le_one (by norm_num)]; exact hq
    have h2 : (0 : K) ≤ ((n - 1 : Nat) : K) := Nat.cast_nonneg _
    nlinarith
  have hfl : ⌊((n - 1 : Nat) : K) * (q / 100)⌋.toNat < n := by
    have : ⌊((n - 1 : Nat) : K) * (q / 100)⌋ ≤ ((n - 1 : Nat) : ℤ) := by
      have := Int.floor_le_floor hle
      rwa [Int.floor_natCast] at this
    omega
  rw [hget _ _ hfl, hh c rfl]
  ring

/-- Not more than the percentile. -/
theorem percentile_count {q : K} {l : List K} (hl : l ≠ []) (hq0 : 0 ≤ q) (hq : q ≤ 100) :
    ((l.length - 1 : Nat) : K) * (q / 100) < (l.countP fun x => decide (x ≤ percentile q l) : Nat) := by
  have hperm := List.perm_insertionSort (· ≤ ·) l
  have hsorted : (l.insertionSort (· ≤ ·)).Pairwise (fun a b => a ≤ b) := List.pairwise_insertionSort (· ≤ ·) l
  have hn : 0 < l.length := List.length_pos_iff.mpr hl
  have h0 : 0 ≤ ((l.length - 1 : Nat) : K) * (q / 100) := by positivity
  have hle : ((l.length - 1 : Nat) : K) * (q / 100) ≤ ((l.length - 1 : Nat) : K) := by
    have h1 : q / 100 ≤ 1 := by rw [div_le_one (by norm_num)]; exact hq
    have h2 : (0 : K) ≤ ((l.length - 1 : Nat) : K) := Nat.cast_nonneg _
    nlinarith
  rw [← hperm.countP_eq]
  generalize hpd : percentile q l = p
  unfold percentile at hpd
  dsimp only at hpd
  have hslen := hperm.length_eq
  generalize l.insertionSort (· ≤ ·) = s at *
  generalize hhdef : ((l.length - 1 : Nat) : K) * (q / 100) = h at *
  have hfl : ⌊h⌋.toNat < s.length := by
    have : ⌊h⌋ ≤ ((l.length - 1 : Nat) : ℤ) := by
      have := Int.floor_le_floor hle
      rwa [Int.floor_natCast] at this
    omega
  have hf0 : 0 ≤ ⌊h⌋ := Int.floor_nonneg.mpr h0
  have hlo : s.getD ⌊h⌋.toNat 0 = s[⌊h⌋.toNat] := by
    rw [List.getD_eq_getElem?_getD, List.getElem?_eq_getElem hfl]; rfl
  rw [hlo] at hpd
  have hnext : s[⌊h⌋.toNat] ≤ s.getD (⌊h⌋.toNat + 1) s[⌊h⌋.toNat] := by
    rw [List.getD_eq_getElem?_getD]
    by_cases hk : ⌊h⌋.toNat + 1 < s.length
    · rw [List.getElem?_eq_getElem hk]
      exact List.pairwise_iff_getElem.mp hsorted _ _ hfl hk (by omega)
    · rw [List.getElem?_eq_none (by omega)]; exact le_refl _
  have hp : s[⌊h⌋.toNat] ≤ s[⌊h⌋.toNat] + (h - (⌊h⌋ : K)) * (s.getD (⌊h⌋.toNat + 1) s[⌊h⌋.toNat] - s[⌊h⌋.toNat]) := by
    have h1 : 0 ≤ h - (⌊h⌋ : K) := by have := Int.floor_le h; linarith
    have h2 : 0 ≤ s.getD (⌊h⌋.toNat + 1) s[⌊h⌋.toNat] - s[⌊h⌋.toNat] := by linarith
    nlinarith [mul_nonneg h1 h2]
  rw [hpd] at hp
  have hcount : ⌊h⌋.toNat + 1 ≤ s.countP fun x => decide (x ≤ p) := by
    have h1 : ((s.take (⌊h⌋.toNat + 1)).countP fun x => decide (x ≤ p)) ≤ s.countP fun x => decide (x ≤ p) :=
      (List.take_sublist _ _).countP_le
    have h2 : ((s.take (⌊h⌋.toNat + 1)).countP fun x => decide (x ≤ p)) = (s.take (⌊h⌋.toNat + 1)).length := by
      rw [List.countP_eq_length]
      intro x hx
      obtain ⟨i, hi⟩ := List.mem_iff_getElem?.mp hx
      rw [List.getElem?_take] at hi
      split at hi
      · obtain ⟨hil, hie⟩ := List.getElem?_eq_some_iff.mp hi
        rw [decide_eq_true_eq, ← hie]
        refine le_trans ?_ hp
        rcases Nat.lt_or_eq_of_le (show i ≤ ⌊h⌋.toNat by omega) with h' | h'
        · exact List.pairwise_iff_getElem.mp hsorted _ _ hil hfl h'
        · subst h'; exact le_refl _
      · exact absurd hi (by simp)
    rw [h2, List.length_take] at h1
    omega
  have h3 : h < (⌊h⌋ : K) + 1 := Int.lt_floor_add_one h
  have h4 : (⌊h⌋ : K) + 1 = ((⌊h⌋.toNat + 1 : Nat) : K) := by
    have : ((⌊h⌋.toNat : Nat) : ℤ) = ⌊h⌋ := Int.toNat_of_nonneg hf0
    have := congrArg (Int.cast : ℤ → K) this
    push_cast at this ⊢
    rw [← this]
  rw [h4] at h3
  exact lt_of_lt_of_le h3 (by exact_mod_cast hcount)

end BTA.ResFit
