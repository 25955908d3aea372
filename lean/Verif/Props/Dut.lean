import Verif.Props.Geometry
import Mathlib.Algebra.Order.Field.Basic
import Mathlib.Algebra.Order.Round
import Mathlib.Data.Rat.Floor
/-
Properties of the pixel coordinates, beam_telescope_analysis/telescope/dut.py: C34, C35.
-/
namespace BTA.Props
open BTA.Geo BTA.Dut BTA.Spec

section
variable {K : Type} [Field K] [LinearOrder K] [IsStrictOrderedRing K]

/-! ### C34 -/

/-- C34: a ValueError is raised exactly if an index is outside of the matrix, where pixel (1, 1) is from 0.5 to 1.5. -/
theorem C34_index_error_iff (d : Pixels K) (idx : List (K × K)) (e : Err) :
    indexToLocal d idx = .error e ↔ e = .outOfLimits ∧
      ∃ p ∈ idx, p.1 < 1/2 ∨ d.nColumns + 1/2 < p.1 ∨ p.2 < 1/2 ∨ d.nRows + 1/2 < p.2 := by
  unfold indexToLocal
  split
  · rename_i h
    simp only [reduceCtorEq, false_iff]
    rintro ⟨-, p, hp, h2⟩
    have := of_decide_eq_true (List.all_eq_true.mp h p hp)
    obtain ⟨⟨a, b⟩, c, d'⟩ := this
    rcases h2 with h2 | h2 | h2 | h2
    · exact absurd h2 (not_lt.mpr a)
    · exact absurd h2 (not_lt.mpr b)
    · exact absurd h2 (not_lt.mpr c)
    · exact absurd h2 (not_lt.mpr d')
  · rename_i h
    constructor
    · intro h2
      injection h2 with h2
      refine ⟨h2.symm, ?_⟩
      rw [List.all_eq_true] at h
      push Not at h
      obtain ⟨p, hp, h3⟩ := h
      refine ⟨p, hp, ?_⟩
      simp only [ne_eq, decide_eq_true_eq, not_and_or, not_le] at h3
      tauto
    · rintro ⟨rfl, _⟩
      rfl

/-- C34: the local position of an index: pixels have the given size, the centre of the matrix is at the origin. -/
theorem C34_position (d : Pixels K) (idx : List (K × K)) (out : List (K × K × K)) (h : indexToLocal d idx = .ok out) :
    out = idx.map fun p => (d.columnSize * (p.1 - (d.nColumns + 1) / 2), d.rowSize * (p.2 - (d.nRows + 1) / 2), 0) := by
  unfold indexToLocal at h
  split at h
  · injection h with h
    rw [← h]
    refine List.map_congr_left fun p _ => ?_
    congr 1
    · ring
    · congr 1
      ring
  · cases h

theorem in_limits (s : K) (n : Nat) (c : K) (hs : 0 < s) :
    (-(1/2) * (n : K) * s ≤ s * (c - 1/2 - 1/2 * n) ∧ s * (c - 1/2 - 1/2 * n) ≤ 1/2 * n * s) ↔ 1/2 ≤ c ∧ c ≤ n + 1/2 := by
  have e1 : -(1/2) * (n : K) * s = s * (-(1/2) * n) := by ring
  have e2 : 1/2 * (n : K) * s = s * (1/2 * n) := by ring
  rw [e1, e2, mul_le_mul_iff_right₀ hs, mul_le_mul_iff_right₀ hs]
  constructor
  · rintro ⟨a, b⟩; exact ⟨by linarith, by linarith⟩
  · rintro ⟨a, b⟩; exact ⟨by linarith, by linarith⟩

theorem zClose_zero (zs : List K) (h : ∀ z ∈ zs, z = 0) : zClose zs = true := by
  unfold zClose
  rw [List.all_eq_true]
  intro z hz
  rw [h z hz]
  simp

/-- C34: from index to local position and back gives the same index. -/
theorem C34_there_and_back (d : Pixels K) (hc : 0 < d.columnSize) (hr : 0 < d.rowSize) (idx : List (K × K)) (out : List (K × K × K))
    (h : indexToLocal d idx = .ok out) :
    localToIndex d (out.map fun p => (p.1, p.2.1)) (some (out.map fun p => p.2.2)) = .ok idx ∧
    localToIndex d (out.map fun p => (p.1, p.2.1)) none = .ok idx := by
  unfold indexToLocal at h
  split at h
  · rename_i hall
    injection h with h
    subst h
    rw [List.all_eq_true] at hall
    have hlim : ((List.map (fun p : K × K × K => (p.1, p.2.1)) (idx.map fun p =>
        (d.columnSize * (p.1 - 1/2 - 1/2 * d.nColumns), d.rowSize * (p.2 - 1/2 - 1/2 * d.nRows), 0))).all fun p =>
        (-(1/2) * d.nColumns * d.columnSize ≤ p.1 ∧ p.1 ≤ 1/2 * d.nColumns * d.columnSize) ∧
        (-(1/2) * d.nRows * d.rowSize ≤ p.2 ∧ p.2 ≤ 1/2 * d.nRows * d.rowSize)) = true := by
      rw [List.map_map, List.all_map, List.all_eq_true]
      intro p hp
      have := of_decide_eq_true (hall p hp)
      simp only [Function.comp, decide_eq_true_eq, in_limits _ _ _ hc, in_limits _ _ _ hr]
      exact this
    have hmap : (List.map (fun p : K × K × K => (p.1, p.2.1)) (idx.map fun p =>
        (d.columnSize * (p.1 - 1/2 - 1/2 * d.nColumns), d.rowSize * (p.2 - 1/2 - 1/2 * d.nRows), 0))).map (fun p =>
          (p.1 / d.columnSize + 1/2 + 1/2 * d.nColumns, p.2 / d.rowSize + 1/2 + 1/2 * d.nRows)) = idx := by
      rw [List.map_map, List.map_map]
      conv_rhs => rw [← List.map_id idx]
      refine List.map_congr_left fun p _ => ?_
      simp only [Function.comp, id]
      rw [mul_div_cancel_left₀ _ hc.ne', mul_div_cancel_left₀ _ hr.ne']
      ext
      · ring
      · ring
    unfold localToIndex
    have hz1 : zOk (none : Option (List K)) = true := rfl
    rw [if_pos, if_pos hlim, hmap, if_pos hz1]
    · exact ⟨rfl, rfl⟩
    · refine zClose_zero _ fun z hz => ?_
      simp only [List.map_map, List.mem_map, Function.comp] at hz
      obtain ⟨_, _, rfl⟩ := hz
      rfl
  · cases h

/-- C34: from local position to index and back gives the same position. -/
theorem C34_back_and_there (d : Pixels K) (hc : 0 < d.columnSize) (hr : 0 < d.rowSize) (pos : List (K × K)) (zs : Option (List K))
    (out : List (K × K)) (h : localToIndex d pos zs = .ok out) :
    indexToLocal d out = .ok (pos.map fun p => (p.1, p.2, 0)) := by
  unfold localToIndex at h
  split at h
  · split at h
    · rename_i hz hall
      injection h with h
      subst h
      rw [List.all_eq_true] at hall
      have inv : ∀ (s : K) (n : Nat) (x : K), 0 < s → s * ((x / s + 1/2 + 1/2 * n) - 1/2 - 1/2 * n) = x := by
        intro s n x hs
        have : (x / s + 1/2 + 1/2 * (n : K)) - 1/2 - 1/2 * n = x / s := by ring
        rw [this, mul_div_cancel₀ _ hs.ne']
      unfold indexToLocal
      rw [if_pos]
      · rw [List.map_map]
        congr 1
        refine List.map_congr_left fun p _ => ?_
        simp only [Function.comp, inv _ _ _ hc, inv _ _ _ hr]
      · rw [List.all_map, List.all_eq_true]
        intro p hp
        have := of_decide_eq_true (hall p hp)
        rw [← inv d.columnSize d.nColumns p.1 hc, ← inv d.rowSize d.nRows p.2 hr, in_limits _ _ _ hc, in_limits _ _ _ hr] at this
        simpa only [Function.comp, decide_eq_true_eq] using this
    · cases h
  · cases h

/-- C34: positions are refused exactly if one is not on the matrix, or if z is given and one of its values is not zero. The check of z
is first. -/
theorem C34_position_error_iff (d : Pixels K) (pos : List (K × K)) (zs : Option (List K)) (e : Err) :
    localToIndex d pos zs = .error e ↔
      (e = .zNotZero ∧ ∃ l, zs = some l ∧ ∃ z ∈ l, 1 / 10 ^ 8 < |z|) ∨
      (e = .outOfLimits ∧ (∀ l, zs = some l → ∀ z ∈ l, |z| ≤ 1 / 10 ^ 8) ∧
        ∃ p ∈ pos, d.nColumns * d.columnSize / 2 < |p.1| ∨ d.nRows * d.rowSize / 2 < |p.2|) := by
  have hz : zOk zs = true ↔ ∀ l, zs = some l → ∀ z ∈ l, |z| ≤ 1 / 10 ^ 8 := by
    cases zs with
    | none => simp [zOk]
    | some l => simp [zOk, zClose]
  have ea : ∀ (n : Nat) (s x : K), (-(1/2) * (n : K) * s ≤ x ∧ x ≤ 1/2 * n * s) ↔ |x| ≤ n * s / 2 := by
    intro n s x
    rw [abs_le]
    constructor
    · rintro ⟨a, b⟩; exact ⟨by linarith, by linarith⟩
    · rintro ⟨a, b⟩; exact ⟨by linarith, by linarith⟩
  have hn : ¬ zOk zs = true ↔ ∃ l, zs = some l ∧ ∃ z ∈ l, 1 / 10 ^ 8 < |z| := by
    rw [hz]; push Not; rfl
  unfold localToIndex
  split
  · rename_i h1
    have h1' := hz.mp h1
    split
    · rename_i h2
      rw [List.all_eq_true] at h2
      simp only [reduceCtorEq, false_iff, not_or]
      refine ⟨fun h => hn.mpr h.2 h1, ?_⟩
      rintro ⟨-, -, p, hp, h3⟩
      have := of_decide_eq_true (h2 p hp)
      rw [ea, ea] at this
      rcases h3 with h3 | h3
      · exact absurd this.1 (not_le.mpr h3)
      · exact absurd this.2 (not_le.mpr h3)
    · rename_i h2
      constructor
      · intro h3
        injection h3 with h3
        refine .inr ⟨h3.symm, h1', ?_⟩
        rw [List.all_eq_true] at h2
        push Not at h2
        obtain ⟨p, hp, h3⟩ := h2
        refine ⟨p, hp, ?_⟩
        simp only [ne_eq, decide_eq_true_eq, ea, not_and_or, not_le] at h3
        exact h3
      · rintro (h3 | ⟨rfl, -⟩)
        · exact absurd h1 (hn.mpr h3.2)
        · rfl
  · rename_i h1
    constructor
    · intro h3
      injection h3 with h3
      exact .inl ⟨h3.symm, hn.mp h1⟩
    · rintro (⟨rfl, -⟩ | h3)
      · rfl
      · exact absurd (hz.mpr h3.2.1) h1

end

/-- C34: for every alignment of the DUT, from index to global position and back gives the same index. -/
theorem C34_global (d : Pixels ℝ) (hc : 0 < d.columnSize) (hr : 0 < d.rowSize) (a : Alignment) (o : Override)
    (idx : List (ℝ × ℝ)) (out : List Vec3) (h : indexToGlobal d a o idx = .ok out) : globalToIndex d a o out = .ok idx := by
  unfold indexToGlobal at h
  split at h
  · cases h
  · rename_i ps hps
    have := (C34_there_and_back d hc hr idx ps hps).1
    unfold globalToIndex
    rw [C30_there_and_back a o _ _ h]
    simp only [List.map_map]
    exact this

/-- C34: every index on the matrix has a global position. -/
theorem C34_global_exists (d : Pixels ℝ) (a : Alignment) (o : Override) (idx : List (ℝ × ℝ))
    (h : ∀ p ∈ idx, (1/2 ≤ p.1 ∧ p.1 ≤ d.nColumns + 1/2) ∧ (1/2 ≤ p.2 ∧ p.2 ≤ d.nRows + 1/2)) :
    ∃ out, indexToGlobal d a o idx = .ok out := by
  cases hg : indexToGlobal d a o idx with
  | ok out => exact ⟨out, rfl⟩
  | error e =>
    exfalso
    unfold indexToGlobal at hg
    split at hg
    · rename_i e' he
      obtain ⟨-, p, hp, h2⟩ := (C34_index_error_iff d idx e').mp he
      obtain ⟨⟨h3, h4⟩, h5, h6⟩ := h p hp
      rcases h2 with h2 | h2 | h2 | h2 <;> linarith
    · rename_i ps hps
      obtain ⟨-, -, p, hp, h2⟩ := (C30_error_iff a o _ e).mp hg
      rw [C34_position d idx ps hps] at hp
      simp only [List.map_map, List.mem_map, Function.comp] at hp
      obtain ⟨q, -, rfl⟩ := hp
      simp at h2
      norm_num at h2

example : ∃ out, indexToGlobal ⟨250, 50, 80, 336⟩ ⟨1, 2, 3, 0.1, 0.2, 0.3⟩ {} [(1, 1), (80.25, 300)] = .ok out :=
  C34_global_exists _ _ _ _ (by norm_num)

example : indexToLocal (K := ℚ) ⟨250, 50, 80, 336⟩ [(1, 1), (80, 336)] = .ok [(-9875, -8375, 0), (9875, 8375, 0)] := by
  decide +kernel

/-! ### C35 -/
section
variable {K : Type} [Field K] [LinearOrder K] [IsStrictOrderedRing K] [FloorRing K]

theorem corners_ok (d : Pixels K) : ∃ ps, indexToLocal d (corners d) = .ok ps := by
  cases h : indexToLocal d (corners d) with
  | ok ps => exact ⟨ps, rfl⟩
  | error e =>
    exfalso
    obtain ⟨-, p, hp, h2⟩ := (C34_index_error_iff d _ e).mp h
    have hn : ∀ n : Nat, (0 : K) ≤ n := fun n => Nat.cast_nonneg n
    simp only [corners, List.mem_cons, List.not_mem_nil, or_false] at hp
    rcases hp with rfl | rfl | rfl | rfl <;> rcases h2 with h2 | h2 | h2 | h2 <;> simp only at h2 <;>
      linarith [hn d.nColumns, hn d.nRows]

theorem xExtent_eq (d : Pixels K) (hc : 0 < d.columnSize) :
    xExtent d = .ok (-(d.nColumns * d.columnSize / 2), d.nColumns * d.columnSize / 2) := by
  obtain ⟨ps, hps⟩ := corners_ok d
  have hn : (0 : K) ≤ d.nColumns * d.columnSize := mul_nonneg (Nat.cast_nonneg _) hc.le
  have e1 : d.columnSize * (1/2 - (d.nColumns + 1) / 2) = -(d.nColumns * d.columnSize / 2) := by ring
  have e2 : d.columnSize * (d.nColumns + 1/2 - (d.nColumns + 1) / 2) = d.nColumns * d.columnSize / 2 := by ring
  unfold xExtent
  rw [hps]
  have := C34_position d _ _ hps
  subst this
  simp only [corners, List.map_cons, List.map_nil, List.tail_cons, List.headD_cons, List.foldl_cons, List.foldl_nil, e1, e2]
  have hle : -(d.nColumns * d.columnSize / 2) ≤ d.nColumns * d.columnSize / 2 := by linarith
  rw [min_self, min_eq_left hle, max_self, max_eq_right hle, min_eq_left hle, max_self]

theorem yExtent_eq (d : Pixels K) (hc : 0 < d.rowSize) :
    yExtent d = .ok (-(d.nRows * d.rowSize / 2), d.nRows * d.rowSize / 2) := by
  obtain ⟨ps, hps⟩ := corners_ok d
  have hn : (0 : K) ≤ d.nRows * d.rowSize := mul_nonneg (Nat.cast_nonneg _) hc.le
  have e1 : d.rowSize * (1/2 - (d.nRows + 1) / 2) = -(d.nRows * d.rowSize / 2) := by ring
  have e2 : d.rowSize * (d.nRows + 1/2 - (d.nRows + 1) / 2) = d.nRows * d.rowSize / 2 := by ring
  unfold yExtent
  rw [hps]
  have := C34_position d _ _ hps
  subst this
  simp only [corners, List.map_cons, List.map_nil, List.tail_cons, List.headD_cons, List.foldl_cons, List.foldl_nil, e1, e2]
  have hle : -(d.nRows * d.rowSize / 2) ≤ d.nRows * d.rowSize / 2 := by linarith
  rw [min_eq_left hle, min_self, min_eq_left hle, max_eq_right hle, max_eq_left hle, max_self]

theorem npMod_spec (x m : K) (hm : 0 < m) : InCell m x (npMod x m) := by
  unfold npMod
  have h1 := Int.floor_le (x / m)
  have h2 := Int.lt_floor_add_one (x / m)
  rw [le_div_iff₀ hm] at h1
  rw [div_lt_iff₀ hm] at h2
  exact ⟨by linarith, by linarith, ⌊x / m⌋, by ring⟩

/-- The shift by the wrong edge of the sensor is a whole number of cells if and only if the sensor consists of whole cells. -/
theorem npMod_edge (k n : Nat) (s x : K) (hs : 0 < s) (hk : 0 < k) :
    InCell (k * s) (x - -(n * s / 2)) (npMod (x + -(n * s / 2)) (s * k)) ↔ k ∣ n := by
  have hk' : (0 : K) < k := Nat.cast_pos.mpr hk
  have hks : 0 < s * (k : K) := mul_pos hs hk'
  obtain ⟨h1, h2, m, h3⟩ := npMod_spec (x + -(n * s / 2)) (s * k) hks
  constructor
  · rintro ⟨-, -, m', h4⟩
    have : (n : K) * s = ((m' - m : Int) : K) * (k * s) := by push_cast; linear_combination h4 - h3
    have : (n : K) = ((m' - m : Int) : K) * k := by
      rw [← mul_assoc] at this
      exact mul_right_cancel₀ hs.ne' this
    have : ((n : Int) : K) = (((m' - m) * (k : Int) : Int) : K) := by push_cast; push_cast at this; exact this
    have := Int.cast_injective this
    exact Int.natCast_dvd_natCast.mp ⟨m' - m, by rw [this]; ring⟩
  · rintro ⟨j, rfl⟩
    refine ⟨h1, by rwa [mul_comm (k : K) s], m + j, ?_⟩
    push_cast
    push_cast at h3
    linear_combination h3

theorem mapToCell_eq (kx ky : Nat) (d : Pixels K) (hc : 0 < d.columnSize) (hr : 0 < d.rowSize)
    (pos : List (K × K)) (zs : Option (List K)) (out : List (K × K)) (h : mapToCell kx ky d pos zs = .ok out) :
    out = pos.map fun p => (npMod (p.1 + -(d.nColumns * d.columnSize / 2)) (d.columnSize * kx),
      npMod (p.2 + -(d.nRows * d.rowSize / 2)) (d.rowSize * ky)) := by
  unfold mapToCell at h
  rw [xExtent_eq d hc, yExtent_eq d hr] at h
  split at h
  · simp only [Except.ok.injEq] at h
    exact h.symm
  · cases h

/-- C35: the position in the primitive cell of `kx` times `ky` pixels is the position relative to the edge of the sensor, modulo
whole cells, if the sensor consists of whole cells.

What is missing for the full statement: `C35_wrong_edge`. -/
theorem C35_partial (kx ky : Nat) (hkx : 0 < kx) (hky : 0 < ky) (d : Pixels K) (hc : 0 < d.columnSize) (hr : 0 < d.rowSize)
    (hx : kx ∣ d.nColumns) (hy : ky ∣ d.nRows) (pos : List (K × K)) (zs : Option (List K)) (out : List (K × K))
    (h : mapToCell kx ky d pos zs = .ok out) :
    List.Forall₂ (fun p q => InCell (kx * d.columnSize) (p.1 - -(d.nColumns * d.columnSize / 2)) q.1 ∧
      InCell (ky * d.rowSize) (p.2 - -(d.nRows * d.rowSize / 2)) q.2) pos out := by
  rw [mapToCell_eq kx ky d hc hr pos zs out h, List.forall₂_map_right_iff, List.forall₂_same]
  exact fun p _ => ⟨(npMod_edge kx d.nColumns _ _ hc hkx).mpr hx, (npMod_edge ky d.nRows _ _ hr hky).mpr hy⟩

/-- C35: for cells of one pixel there is no further condition. -/
theorem C35_pixel (d : Pixels K) (hc : 0 < d.columnSize) (hr : 0 < d.rowSize) (pos : List (K × K)) (zs : Option (List K))
    (out : List (K × K)) (h : mapToCell 1 1 d pos zs = .ok out) :
    List.Forall₂ (fun p q => InCell d.columnSize (p.1 - -(d.nColumns * d.columnSize / 2)) q.1 ∧
      InCell d.rowSize (p.2 - -(d.nRows * d.rowSize / 2)) q.2) pos out := by
  simpa using C35_partial 1 1 one_pos one_pos d hc hr (one_dvd _) (one_dvd _) pos zs out h

/-- C35: if the number of columns is not a multiple of the number of columns of a cell, no position is folded correctly: the position
relative to the edge is computed with the wrong sign. -/
theorem C35_wrong_edge (kx ky : Nat) (hkx : 0 < kx) (d : Pixels K) (hc : 0 < d.columnSize) (hr : 0 < d.rowSize)
    (hx : ¬ kx ∣ d.nColumns) (pos : List (K × K)) (zs : Option (List K)) (out : List (K × K))
    (h : mapToCell kx ky d pos zs = .ok out) :
    List.Forall₂ (fun p q => ¬ InCell (kx * d.columnSize) (p.1 - -(d.nColumns * d.columnSize / 2)) q.1) pos out := by
  rw [mapToCell_eq kx ky d hc hr pos zs out h, List.forall₂_map_right_iff, List.forall₂_same]
  exact fun p _ => fun hin => hx ((npMod_edge kx d.nColumns _ _ hc hkx).mp hin)

omit [IsStrictOrderedRing K] in
/-- C35: two positions which differ by whole cells have the same position in the cell: the position in the cell does not depend on
the pixel. -/
theorem C35_periodic (size x r r' : K) (h0 : 0 < size) (m : Int) [IsStrictOrderedRing K]
    (h : InCell size x r) (h' : InCell size (x + m * size) r') : r' = r := by
  obtain ⟨a1, a2, j, a3⟩ := h
  obtain ⟨b1, b2, j', b3⟩ := h'
  have e : r' - r = ((m + j - j' : Int) : K) * size := by push_cast; linear_combination a3 - b3
  have h1 : ((m + j - j' : Int) : K) < 1 := by
    have : ((m + j - j' : Int) : K) * size < 1 * size := by rw [← e]; linarith
    exact lt_of_mul_lt_mul_right this h0.le
  have h2 : (-1 : K) < ((m + j - j' : Int) : K) := by
    have : -1 * size < ((m + j - j' : Int) : K) * size := by rw [← e]; linarith
    exact lt_of_mul_lt_mul_right this h0.le
  have h1' : m + j - j' < 1 := by exact_mod_cast h1
  have h2' : -1 < m + j - j' := by exact_mod_cast h2
  have : m + j - j' = 0 := by omega
  rw [this] at e
  simp at e
  linarith

/-- C35: positions are always returned unless z is given and not zero. -/
theorem C35_error_iff (kx ky : Nat) (d : Pixels K) (hc : 0 < d.columnSize) (hr : 0 < d.rowSize) (pos : List (K × K))
    (zs : Option (List K)) (e : Err) :
    mapToCell kx ky d pos zs = .error e ↔ e = .zNotZero ∧ ∃ l, zs = some l ∧ ∃ z ∈ l, 1 / 10 ^ 8 < |z| := by
  have hn : ¬ zOk zs = true ↔ ∃ l, zs = some l ∧ ∃ z ∈ l, 1 / 10 ^ 8 < |z| := by
    cases zs with
    | none => simp [zOk]
    | some l => simp [zOk, zClose]
  unfold mapToCell
  rw [xExtent_eq d hc, yExtent_eq d hr, ← hn]
  split
  · rename_i h; simp [h]
  · rename_i h
    rw [Except.error.injEq, eq_comm]
    exact ⟨fun h2 => ⟨h2, h⟩, fun h2 => h2.1⟩

/-- A sensor with three columns of size 10 and double columns: the left edge is folded to 10 instead of 0. -/
example : mapToCell (K := ℚ) 2 1 ⟨10, 10, 3, 2⟩ [(-15, -10)] none = .ok [(10, 0)] := by decide +kernel

example : mapToCell (K := ℚ) 2 1 ⟨10, 10, 4, 2⟩ [(-20, -10), (3, 7)] none = .ok [(0, 0), (3, 7)] := by decide +kernel

end

end BTA.Props
