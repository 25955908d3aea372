import Verif.Spec.MapPlot
import Mathlib.Tactic.Linarith
import Mathlib.Tactic.Ring
import Mathlib.Tactic.FieldSimp
import Mathlib.Tactic.NormNum
/-
C237: maps of a DUT.
-/
namespace BTA.MapPlot
open BTA.MapPlot.Spec

theorem same_bin {a h x : ℝ} (i j : ℕ) (h0 : 0 < h) (hi : a + i * h < x) (hi' : x < a + (i + 1) * h) (hj : a + j * h < x) (hj' : x < a + (j + 1) * h) : i = j := by
  have h₁ : (i : ℝ) < j + 1 := lt_of_mul_lt_mul_right (by linarith) h0.le
  have h₂ : (j : ℝ) < i + 1 := lt_of_mul_lt_mul_right (by linarith) h0.le
  have h₁' : i < j + 1 := by exact_mod_cast h₁
  have h₂' : j < i + 1 := by exact_mod_cast h₂
  omega

theorem width_pos {lo hi : ℝ} {n i : ℕ} (hn : i < n) (h : lo < hi) : 0 < (hi - lo) / n :=
  div_pos (by linarith) (by exact_mod_cast (by omega : 0 < n))

/-- A map whose third number of the extent is the larger one: the value of a bin is shown at the mirrored place. -/
theorem shows_mirrored (g : Grid) (x0 x1 y0 y1 zMin : ℝ) (zMax : Option ℝ) (hx : x0 < x1) (hy : y0 < y1) (i j : ℕ) (x y : ℝ)
    (hi : InBin x0 x1 g.cols i x) (hj : InBin y0 y1 g.rows j y) (v : ℝ) :
    Shows (plot2d g (x0, x1, y1, y0) zMin zMax) x (y0 + y1 - y) v ↔ g.val j i = some v := by
  obtain ⟨hi, hi₁, hi₂⟩ := hi
  obtain ⟨hj, hj₁, hj₂⟩ := hj
  have wx := width_pos hi hx
  have wy := width_pos hj hy
  have ey : (y0 - y1) / (g.rows : ℝ) = -((y1 - y0) / g.rows) := by ring
  have key : ∀ c, c ∈ (plot2d g (x0, x1, y1, y0) zMin zMax).cells ↔ ∃ r < g.rows, ∃ k < g.cols, ∃ w, g.val r k = some w ∧
      c = ⟨x0 + k * ((x1 - x0) / g.cols), x0 + (k + 1) * ((x1 - x0) / g.cols), y1 - (r + 1) * ((y1 - y0) / g.rows), y1 - r * ((y1 - y0) / g.rows), w⟩ := by
    intro c
    simp only [plot2d, imshow, List.mem_flatMap, List.mem_range, List.mem_filterMap, Option.map_eq_some_iff]
    have cell : ∀ r k : ℕ, ∀ w, (⟨min (x0 + k * ((x1 - x0) / g.cols)) (x0 + (k + 1 : ℕ) * ((x1 - x0) / g.cols)),
        max (x0 + k * ((x1 - x0) / g.cols)) (x0 + (k + 1 : ℕ) * ((x1 - x0) / g.cols)),
        min (y1 + r * ((y0 - y1) / g.rows)) (y1 + (r + 1 : ℕ) * ((y0 - y1) / g.rows)),
        max (y1 + r * ((y0 - y1) / g.rows)) (y1 + (r + 1 : ℕ) * ((y0 - y1) / g.rows)), w⟩ : Cell) =
        ⟨x0 + k * ((x1 - x0) / g.cols), x0 + (k + 1) * ((x1 - x0) / g.cols), y1 - (r + 1) * ((y1 - y0) / g.rows), y1 - r * ((y1 - y0) / g.rows), w⟩ := by
      intro r k w
      rw [ey]
      push_cast
      rw [min_eq_left (by linarith), max_eq_right (by linarith), min_eq_right (by linarith), max_eq_left (by linarith)]
      simp only [Cell.mk.injEq, and_true, true_and]
      constructor <;> ring
    constructor
    · rintro ⟨r, hr, k, hk, w, hw, rfl⟩
      exact ⟨r, hr, k, hk, w, hw, cell r k w⟩
    · rintro ⟨r, hr, k, hk, w, hw, rfl⟩
      exact ⟨r, hr, k, hk, w, hw, cell r k w⟩
  constructor
  · rintro ⟨c, hc, h₁, h₂, h₃, h₄, rfl⟩
    obtain ⟨r, hr, k, hk, w, hw, rfl⟩ := (key c).1 hc
    simp only at h₁ h₂ h₃ h₄ ⊢
    have e₁ : i = k := same_bin i k wx hi₁ hi₂ h₁ h₂
    have e₂ : j = r := same_bin j r wy hj₁ hj₂ (by linarith) (by linarith)
    subst e₁; subst e₂
    exact hw
  · intro h
    exact ⟨_, (key _).2 ⟨j, hj, i, hi, v, h, rfl⟩, hi₁, hi₂, by simp only; linarith, by simp only; linarith, rfl⟩

/-- Bins counted from the other end. -/
theorem mirrored_bin {lo hi : ℝ} {n j : ℕ} {y : ℝ} (h : InBin lo hi n j y) : InBin lo hi n (n - 1 - j) (lo + hi - y) := by
  obtain ⟨hj, h₁, h₂⟩ := h
  have hn : (n : ℝ) ≠ 0 := by
    have : n ≠ 0 := by omega
    exact_mod_cast this
  have e : hi = lo + n * ((hi - lo) / n) := by field_simp; ring
  have c : ((n - 1 - j : ℕ) : ℝ) = n - 1 - j := by
    rw [Nat.cast_sub (by omega), Nat.cast_sub (by omega)]; simp
  refine ⟨by omega, ?_, ?_⟩
  · rw [c]; nlinarith
  · rw [c]; nlinarith

/-- The other end, for the place itself. -/
theorem shows_at (g : Grid) (x0 x1 y0 y1 zMin : ℝ) (zMax : Option ℝ) (hx : x0 < x1) (hy : y0 < y1) (i j : ℕ) (x y : ℝ)
    (hi : InBin x0 x1 g.cols i x) (hj : InBin y0 y1 g.rows j y) (v : ℝ) :
    Shows (plot2d g (x0, x1, y1, y0) zMin zMax) x y v ↔ g.val (g.rows - 1 - j) i = some v := by
  have := shows_mirrored g x0 x1 y0 y1 zMin zMax hx hy i (g.rows - 1 - j) x (y0 + y1 - y) hi (mirrored_bin hj) v
  rwa [show y0 + y1 - (y0 + y1 - y) = y by ring] at this

/-- **C237** (what is missing: the map is mirrored in y with respect to its axis, `C237_mirrored_fails`): the map of tracks or hits shows the entries of each bin that has
entries at the x position of the bin and at the negative y position. Bins without entries are white. -/
theorem C237_density_partial (nx ny : ℕ) (sx sy : ℝ) (hsx : 0 < sx) (hsy : 0 < sy) (hist : ℕ → ℕ → ℕ) (i j : ℕ) (x y v : ℝ)
    (hi : InBin (-sx / 2) (sx / 2) nx i x) (hj : InBin (-sy / 2) (sy / 2) ny j y) :
    Shows (densityPicture nx ny sx sy hist) x (-y) v ↔ hist i j ≠ 0 ∧ v = hist i j := by
  have := shows_mirrored (maskedZero nx ny fun i j => hist i j).transpose (-sx / 2) (sx / 2) (-sy / 2) (sy / 2) 0 none (by linarith) (by linarith) i j x y hi hj v
  rw [show -sy / 2 + sy / 2 - y = -y by ring] at this
  refine this.trans ?_
  simp only [Grid.transpose, maskedZero, Nat.cast_eq_zero]
  split
  · next h => simp [h]
  · next h => simp [h, eq_comm]

/-- **C237**: the map of the mean charge, as `C237_density_partial`. -/
theorem C237_charge_partial (nx ny : ℕ) (sx sy : ℝ) (hsx : 0 < sx) (hsy : 0 < sy) (count : ℕ → ℕ → ℕ) (hist : ℕ → ℕ → ℝ) (median : ℝ) (i j : ℕ) (x y v : ℝ)
    (hi : InBin (-sx / 2) (sx / 2) nx i x) (hj : InBin (-sy / 2) (sy / 2) ny j y) :
    Shows (chargePicture nx ny sx sy count hist median) x (-y) v ↔ count i j ≠ 0 ∧ v = hist i j := by
  have := shows_mirrored (maskedWhere nx ny count hist).transpose (-sx / 2) (sx / 2) (-sy / 2) (sy / 2) 0 (some (2 * median)) (by linarith) (by linarith) i j x y hi hj v
  rw [show -sy / 2 + sy / 2 - y = -y by ring] at this
  refine this.trans ?_
  simp only [Grid.transpose, maskedWhere]
  split
  · next h => simp [h]
  · next h => simp [h, eq_comm]

/-- **C237**: the maps of the residuals, as `C237_density_partial`; the place is mirrored at the centre of the DUT. -/
theorem C237_residual_partial (nx ny : ℕ) (xe ye : ℝ × ℝ) (hx : xe.1 < xe.2) (hy : ye.1 < ye.2) (hist : ℕ → ℕ → ℝ) (median std : ℝ) (i j : ℕ) (x y v : ℝ)
    (hi : InBin xe.1 xe.2 nx i x) (hj : InBin ye.1 ye.2 ny j y) :
    Shows (residualPicture nx ny xe ye hist median std) x (ye.1 + ye.2 - y) v ↔ hist i j ≠ 0 ∧ v = hist i j := by
  refine (shows_mirrored (maskedZero nx ny hist).transpose xe.1 xe.2 ye.1 ye.2 _ _ hx hy i j x y hi hj v).trans ?_
  simp only [Grid.transpose, maskedZero]
  split
  · next h => simp [h]
  · next h => simp [h, eq_comm]

/-- **C237** (negation): at the place of a bin the map shows the entries of the bin in the mirrored row. If these differ, the map does not show the entries of the bin at its place. -/
theorem C237_mirrored_fails (nx ny : ℕ) (sx sy : ℝ) (hsx : 0 < sx) (hsy : 0 < sy) (hist : ℕ → ℕ → ℕ) (i j : ℕ) (x y : ℝ)
    (hi : InBin (-sx / 2) (sx / 2) nx i x) (hj : InBin (-sy / 2) (sy / 2) ny j y) (hd : hist i (ny - 1 - j) ≠ hist i j) :
    ¬ Shows (densityPicture nx ny sx sy hist) x y (hist i j) ∧
      (hist i (ny - 1 - j) ≠ 0 → Shows (densityPicture nx ny sx sy hist) x y (hist i (ny - 1 - j))) := by
  have key := shows_at (maskedZero nx ny fun i j => hist i j).transpose (-sx / 2) (sx / 2) (-sy / 2) (sy / 2) 0 none (by linarith) (by linarith) i j x y hi hj
  constructor
  · intro h
    have h' := (key _).1 h
    simp only [Grid.transpose, maskedZero] at h'
    split at h'
    · cases h'
    · exact hd (by exact_mod_cast Option.some.inj h')
  · intro h0
    refine (key _).2 ?_
    simp only [Grid.transpose, maskedZero]
    rw [if_neg (by exact_mod_cast h0)]

theorem le_foldl_max (l : List ℝ) : ∀ a, a ≤ l.foldl max a ∧ (∀ v ∈ l, v ≤ l.foldl max a) ∧ (l.foldl max a = a ∨ l.foldl max a ∈ l) := by
  induction l with
  | nil => intro a; simp
  | cons b l ih =>
    intro a
    obtain ⟨h₁, h₂, h₃⟩ := ih (max a b)
    rw [List.foldl_cons]
    refine ⟨(le_max_left _ _).trans h₁, ?_, ?_⟩
    · intro v hv
      rcases List.mem_cons.1 hv with rfl | hv
      · exact (le_max_right _ _).trans h₁
      · exact h₂ v hv
    · rcases h₃ with h | h
      · rw [h]
        rcases max_choice a b with e | e
        · exact .inl e
        · rw [e]; exact .inr List.mem_cons_self
      · exact .inr (List.mem_cons_of_mem _ h)

theorem mem_values (g : Grid) (v : ℝ) : v ∈ g.values ↔ ∃ i < g.rows, ∃ j < g.cols, g.val i j = some v := by
  simp only [Grid.values, List.mem_flatMap, List.mem_range, List.mem_filterMap]

/-- **C237**: the colour scale of the maps of tracks and hits starts at zero and ends at the largest number of entries (at one if there are no entries), so that no entry is out of
the scale. -/
theorem C237_scale (nx ny : ℕ) (sx sy : ℝ) (hist : ℕ → ℕ → ℕ) :
    (densityPicture nx ny sx sy hist).clim.1 = 0 ∧
    (∀ i < nx, ∀ j < ny, (hist i j : ℝ) ≤ (densityPicture nx ny sx sy hist).clim.2) ∧
    ((∃ i < nx, ∃ j < ny, hist i j ≠ 0 ∧ (densityPicture nx ny sx sy hist).clim.2 = hist i j) ∨
      (∀ i < nx, ∀ j < ny, hist i j = 0) ∧ (densityPicture nx ny sx sy hist).clim.2 = 1) := by
  have hc1 : (densityPicture nx ny sx sy hist).clim.1 = 0 := by
    simp only [densityPicture, plot2d]
    split <;> rfl
  refine ⟨hc1, ?_⟩
  have hc2 : (densityPicture nx ny sx sy hist).clim.2 = defaultMax (maskedZero nx ny fun i j => hist i j).transpose := rfl
  rw [hc2]
  have hmem : ∀ v, v ∈ (maskedZero nx ny fun i j => (hist i j : ℝ)).transpose.values ↔ ∃ i < nx, ∃ j < ny, hist i j ≠ 0 ∧ v = hist i j := by
    intro v
    rw [mem_values]
    simp only [Grid.transpose, maskedZero, Nat.cast_eq_zero]
    constructor
    · rintro ⟨j, hj, i, hi, h⟩
      split at h
      · cases h
      · next h0 => exact ⟨i, hi, j, hj, h0, (Option.some.inj h).symm⟩
    · rintro ⟨i, hi, j, hj, h0, rfl⟩
      exact ⟨j, hj, i, hi, by rw [if_neg h0]⟩
  unfold defaultMax
  generalize (maskedZero nx ny fun i j => (hist i j : ℝ)).transpose.values = vs at hmem
  cases vs with
  | nil =>
    have h0 : ∀ i < nx, ∀ j < ny, hist i j = 0 := by
      intro i hi j hj
      by_contra h
      have := (hmem (hist i j)).2 ⟨i, hi, j, hj, h, rfl⟩
      cases this
    refine ⟨fun i hi j hj => ?_, .inr ⟨h0, rfl⟩⟩
    simp only
    rw [h0 i hi j hj]
    norm_num
  | cons v l =>
    simp only
    obtain ⟨m₁, m₂, m₃⟩ := le_foldl_max l v
    have hin : l.foldl max v ∈ v :: l := by
      rcases m₃ with h | h
      · rw [h]; exact List.mem_cons_self
      · exact List.mem_cons_of_mem _ h
    obtain ⟨i₀, hi₀, j₀, hj₀, h₀, e₀⟩ := (hmem _).1 hin
    have hnot : ¬ ∀ w ∈ v :: l, |w| ≤ 1 / 100000000 + 1 / 100000 * |w| := by
      intro h
      have := h _ hin
      rw [e₀] at this
      have h1 : (1 : ℝ) ≤ hist i₀ j₀ := by exact_mod_cast Nat.one_le_iff_ne_zero.2 h₀
      rw [abs_of_nonneg (by linarith)] at this
      linarith
    rw [if_neg hnot, e₀]
    have hceil : ((⌈((hist i₀ j₀ : ℕ) : ℝ)⌉ : ℤ) : ℝ) = hist i₀ j₀ := by simp
    rw [hceil]
    refine ⟨fun i hi j hj => ?_, .inl ⟨i₀, hi₀, j₀, hj₀, h₀, rfl⟩⟩
    by_cases h : hist i j = 0
    · rw [h]; simp
    · have hm := (hmem (hist i j)).2 ⟨i, hi, j, hj, h, rfl⟩
      rw [← e₀]
      rcases List.mem_cons.1 hm with e | hm
      · rw [e]; exact m₁
      · exact m₂ _ hm

/-- **C237**: the colour scale of the maps of the residuals is not empty and contains all values that are not negative, not more than three standard deviations (less one for the lower end)
below and not more than three standard deviations (and one) above the median. -/
theorem C237_scale_residual (nx ny : ℕ) (xe ye : ℝ × ℝ) (hist : ℕ → ℕ → ℝ) (median std : ℝ) (hm : 0 ≤ median) (hs : 0 ≤ std) :
    (residualPicture nx ny xe ye hist median std).clim.1 < (residualPicture nx ny xe ye hist median std).clim.2 ∧
    ∀ v, 0 ≤ v → median - 3 * std + 1 ≤ v → v ≤ median + 3 * std + 1 →
      (residualPicture nx ny xe ye hist median std).clim.1 ≤ v ∧ v ≤ (residualPicture nx ny xe ye hist median std).clim.2 := by
  have h₁ : (⌈median - 3 * std⌉ : ℝ) < median - 3 * std + 1 := Int.ceil_lt_add_one _
  have h₂ : median + 3 * std + 1 ≤ (⌈median + 3 * std + 1⌉ : ℝ) := Int.le_ceil _
  have e₂ : (residualPicture nx ny xe ye hist median std).clim.2 = ⌈median + 3 * std + 1⌉ := rfl
  have e₁ : (residualPicture nx ny xe ye hist median std).clim.1 ≤ max 0 (⌈median - 3 * std⌉ : ℝ) := by
    simp only [residualPicture, plot2d]
    split
    · exact le_max_left _ _
    · push_cast; exact le_rfl
  rw [e₂]
  refine ⟨?_, fun v h0 hl hu => ⟨e₁.trans (max_le h0 (by linarith)), by linarith⟩⟩
  exact lt_of_le_of_lt e₁ (max_lt (by linarith) (by linarith))

/-- **C237**: the colour scale of the map of the mean charge goes from zero to twice the median. -/
theorem C237_scale_charge (nx ny : ℕ) (sx sy : ℝ) (count : ℕ → ℕ → ℕ) (hist : ℕ → ℕ → ℝ) (median : ℝ) :
    (chargePicture nx ny sx sy count hist median).clim = (0, 2 * median) := by
  simp only [chargePicture, plot2d, Option.getD_some]
  split <;> rfl

/-! A concrete case: one column with two rows, all entries in the first row (y < 0); the map shows them at y > 0. -/

example : InBin (-(100 : ℝ) / 2) (100 / 2) 1 0 10 ∧ InBin (-(50 : ℝ) / 2) (50 / 2) 2 0 (-5) ∧ InBin (-(50 : ℝ) / 2) (50 / 2) 2 1 5 := by
  refine ⟨⟨by norm_num, ?_, ?_⟩, ⟨by norm_num, ?_, ?_⟩, ⟨by norm_num, ?_, ?_⟩⟩ <;> norm_num

example : Shows (densityPicture 1 2 100 50 fun _ j => if j = 0 then 7 else 0) 10 5 7 ∧ ¬ Shows (densityPicture 1 2 100 50 fun _ j => if j = 0 then 7 else 0) 10 (-5) 7 := by
  constructor
  · have := C237_mirrored_fails 1 2 100 50 (by norm_num) (by norm_num) (fun _ j => if j = 0 then 7 else 0) 0 1 10 5
      ⟨by norm_num, by norm_num, by norm_num⟩ ⟨by norm_num, by norm_num, by norm_num⟩ (by simp)
    simpa using this.2
  · have := C237_mirrored_fails 1 2 100 50 (by norm_num) (by norm_num) (fun _ j => if j = 0 then 7 else 0) 0 0 10 (-5)
      ⟨by norm_num, by norm_num, by norm_num⟩ ⟨by norm_num, by norm_num, by norm_num⟩ (by simp)
    simpa using this.1

end BTA.MapPlot
