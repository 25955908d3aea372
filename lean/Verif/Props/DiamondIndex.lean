import Verif.Props.Diamond
/-
Properties of the diamond sensors, beam_telescope_analysis/telescope/dut.py L581-809: mean positions and extents (C109), conversion back to
an index (C110).
-/
namespace BTA.Diamond.Props
open BTA.Dut BTA.Diamond BTA.Spec

section
variable {K : Type} [Field K] [LinearOrder K] [IsStrictOrderedRing K] [FloorRing K]

theorem npMod_fraction (c : K) (hc : ∀ n : ℤ, (n : K) ≠ c) (m : ℤ) (s : ℤ) (v : K) (hv : ∃ n : ℤ, (n : K) = v) :
    npMod (c - (s : K)) (m : K) ≠ v := by
  intro h
  obtain ⟨n, rfl⟩ := hv
  unfold npMod at h
  refine hc (n + m * ⌊(c - (s : K)) / (m : K)⌋ + s) ?_
  push_cast
  rw [← h]
  ring

theorem foldl_fraction (rules : List (Rule K)) (hr : ∀ u ∈ rules, ∃ n : ℤ, (n : K) = u.column) (sel : Bool) (n c b : K) (s : ℤ)
    (hc : ∀ n : ℤ, (n : K) ≠ c) (p : K × K) : rules.foldl (applyRule sel n (c - (s : K)) b) p = p := by
  refine foldl_none rules sel n _ _ p fun u hu h => ?_
  have := npMod_fraction c hc 4 s u.column (hr u hu)
  push_cast at this
  exact this h.1

theorem squareRules_int (k : Kind) : ∀ u ∈ squareRules (K := K) k, ∃ n : ℤ, (n : K) = u.column := by
  intro u hu
  cases k <;>
  · simp only [squareRules, List.mem_cons, List.not_mem_nil, or_false] at hu
    rcases hu with rfl | rfl | rfl | rfl | rfl | rfl
    exacts [⟨0, by simp⟩, ⟨0, by simp⟩, ⟨1, by simp⟩, ⟨2, by simp⟩, ⟨3, by simp⟩, ⟨3, by simp⟩]

theorem hexagonalRules_int : ∀ u ∈ hexagonalRules (K := K), ∃ n : ℤ, (n : K) = u.column := by
  intro u hu
  simp only [hexagonalRules, List.mem_cons, List.not_mem_nil, or_false] at hu
  rcases hu with rfl | rfl | rfl | rfl | rfl | rfl | rfl | rfl | rfl | rfl | rfl | rfl | rfl | rfl
  exacts [⟨0, by simp⟩, ⟨0, by simp⟩, ⟨0, by simp⟩, ⟨1, by simp⟩, ⟨1, by simp⟩, ⟨1, by simp⟩, ⟨1, by simp⟩, ⟨2, by simp⟩, ⟨2, by simp⟩,
    ⟨2, by simp⟩, ⟨2, by simp⟩, ⟨3, by simp⟩, ⟨3, by simp⟩, ⟨3, by simp⟩]

/-- C109: a mean column between two columns is converted with the positions of the chip: no bump bond and no electrode is taken into account. -/
theorem C109_fraction (k : Kind) (s : Position) (c r : K) (hc : ∀ n : ℤ, (n : K) ≠ c) (x y : K) (h : At k s (c, r) x y) :
    x = 250 * (c - 81/2) ∧ y = 50 * (r - 337/2) := by
  have h1 := at_eq k s _ x y h
  have hb : bumpX c (250 * (c - 81/2)) = 250 * (c - 81/2) := by
    have h0 := npMod_fraction c hc 2 0 0 ⟨0, by simp⟩
    have h1 := npMod_fraction c hc 2 0 1 ⟨1, by simp⟩
    simp only [Int.cast_zero, sub_zero, Int.cast_ofNat] at h0 h1
    unfold bumpX
    dsimp only
    rw [if_neg h1, if_neg h0]
  unfold place at h1
  dsimp only at h1
  rw [foldl_fraction _ (squareRules_int k) _ _ _ _ _ hc, foldl_fraction _ hexagonalRules_int _ _ _ _ _ hc, hb, Prod.mk.injEq] at h1
  exact h1

/-- C109: the position jumps: next to a pixel that is not connected, a mean column gives a position more than 97 um from the one of the pixel,
although it differs by less than one hundredth of a column. -/
theorem C109_jump (k : Kind) (s : Position) (c r : ℤ) (x y : K) (h : At k s ((c : K), (r : K)) x y)
    (hn : ¬DiamondPixel k.isFull (c - s.1) (r - s.2)) (d : K) (hd : d ≠ 0) (hd' : |d| ≤ 1 / 100) (x' y' : K)
    (h' : At k s ((c : K) + d, (r : K)) x' y') : 97 < |x' - x| := by
  have hfrac : ∀ n : ℤ, (n : K) ≠ (c : K) + d := by
    intro n hn
    have e : ((n - c : ℤ) : K) = d := by push_cast; linarith
    have h0 : n - c ≠ 0 := by
      intro h0
      rw [h0] at e
      exact hd (by rw [← e]; simp)
    have : (1 : K) ≤ |((n - c : ℤ) : K)| := by
      have := Int.one_le_abs h0
      exact_mod_cast this
    rw [e] at this
    linarith
  have h1 := (C109_fraction k s _ _ hfrac x' y' h').1
  have h2 := C109_chip k s c r x y h hn
  obtain ⟨d1, d2⟩ := abs_le.mp hd'
  rcases Int.even_or_odd c with he | ho
  · rw [h1, h2.2.2 he, lt_abs]
    right
    linarith
  · rw [h1, h2.2.1 ho, lt_abs]
    left
    linarith

theorem half_not_int (n m : ℤ) : (n : K) ≠ (m : K) + 1/2 := by
  intro h
  have : ((2 * n : ℤ) : K) = ((2 * m + 1 : ℤ) : K) := by push_cast; linarith
  have := Int.cast_injective this
  omega

theorem corners_at (k : Kind) (s : Position) : indexToLocal k s (corners (fei4 : Pixels K)) =
    .ok [(-10000, -8400, 0), (-10000, 8400, 0), (10000, -8400, 0), (10000, 8400, 0)] := by
  obtain ⟨out, ho⟩ := (indexToLocal_ok_iff k s (corners (fei4 : Pixels K))).mpr (by
    intro p hp
    simp only [corners, fei4, List.mem_cons, List.not_mem_nil, or_false] at hp
    rcases hp with rfl | rfl | rfl | rfl <;> norm_num)
  have hf := C109_each k s _ out ho
  rw [ho]
  simp only [corners, fei4, Nat.cast_ofNat] at hf
  have n1 : ∀ n : ℤ, (n : K) ≠ 1/2 := fun n h => half_not_int (K := K) n 0 (by rw [h]; norm_num)
  have n2 : ∀ n : ℤ, (n : K) ≠ 80 + 1/2 := fun n h => half_not_int (K := K) n 80 (by rw [h]; norm_num)
  rcases hf with _ | ⟨⟨a1, z1⟩, hf⟩
  rcases hf with _ | ⟨⟨a2, z2⟩, hf⟩
  rcases hf with _ | ⟨⟨a3, z3⟩, hf⟩
  rcases hf with _ | ⟨⟨a4, z4⟩, hf⟩
  cases hf
  have b1 := C109_fraction k s _ _ n1 _ _ a1
  have b2 := C109_fraction k s _ _ n1 _ _ a2
  have b3 := C109_fraction k s _ _ n2 _ _ a3
  have b4 := C109_fraction k s _ _ n2 _ _ a4
  congr 1
  norm_num at b1 b2 b3 b4
  refine congrArg₂ _ (Prod.ext b1.1 (Prod.ext b1.2 z1)) (congrArg₂ _ (Prod.ext b2.1 (Prod.ext b2.2 z2))
    (congrArg₂ _ (Prod.ext b3.1 (Prod.ext b3.2 z3)) (congrArg₂ _ (Prod.ext b4.1 (Prod.ext b4.2 z4)) rfl)))

/-- C109: the extents are those of the chip. -/
theorem C109_extents (k : Kind) (s : Position) :
    xExtent (K := K) k s = .ok (-10000, 10000) ∧ yExtent (K := K) k s = .ok (-8400, 8400) := by
  unfold xExtent yExtent
  rw [corners_at]
  constructor <;> simp <;> constructor <;> norm_num

/-! ### C110 -/

theorem toIndex (x y z : K) (c' r' : K) (h : localToIndex fei4 [(x, y)] (some [z]) = .ok [(c', r')]) :
    c' = x / 250 + 81/2 ∧ r' = y / 50 + 337/2 := by
  unfold localToIndex at h
  split at h
  · split at h
    · injection h with h
      simp only [List.map_cons, List.map_nil, List.cons.injEq, Prod.mk.injEq, and_true] at h
      obtain ⟨h1, h2⟩ := h
      simp only [fei4, Nat.cast_ofNat] at h1 h2
      constructor
      · rw [← h1]; ring
      · rw [← h2]; ring
    · cases h
  · cases h

/-- C110: the way to the position and back gives the same pixel after rounding, for the pixels that are not connected to the diamond. -/
theorem C110_partial (k : Kind) (s : Position) (c r : ℤ) (x y c' r' : K) (h : At k s ((c : K), (r : K)) x y)
    (hn : ¬DiamondPixel k.isFull (c - s.1) (r - s.2)) (hb : localToIndex fei4 [(x, y)] (some [0]) = .ok [(c', r')]) :
    |c' - c| = 2/5 ∧ r' = r ∧ round c' = c ∧ round r' = r := by
  obtain ⟨h1, h2⟩ := toIndex x y 0 c' r' hb
  obtain ⟨hy, ho, he⟩ := C109_chip k s c r x y h hn
  have hr : r' = r := by
    rw [h2, hy]
    ring
  have hc : c' = c - 2/5 ∨ c' = c + 2/5 := by
    rcases Int.even_or_odd c with hE | hO
    · right
      rw [h1, he hE]
      ring
    · left
      rw [h1, ho hO]
      ring
  refine ⟨?_, hr, ?_, by rw [hr, round_intCast]⟩
  · rcases hc with hc | hc <;> rw [hc]
    · rw [sub_sub_cancel_left, abs_neg, abs_of_pos (by norm_num)]
    · rw [add_sub_cancel_left, abs_of_pos (by norm_num)]
  · rw [round_eq]
    rcases hc with hc | hc <;> rw [hc, Int.floor_eq_iff] <;> constructor <;> linarith

/-- C110 does not hold for any connected pixel: the row that comes back is at least half a row away. -/
theorem C110_connected (k : Kind) (s : Position) (c r : ℤ) (x y c' r' : K) (h : At k s ((c : K), (r : K)) x y)
    (hd : DiamondPixel k.isFull (c - s.1) (r - s.2)) (hb : localToIndex fei4 [(x, y)] (some [0]) = .ok [(c', r')]) :
    1/2 ≤ |r' - r| := by
  obtain ⟨h1, h2⟩ := toIndex x y 0 c' r' hb
  obtain ⟨X, Y, -, hy, hc⟩ := at_cases k s c r x y h
  have e : r' - r = (Y : K) / 50 := by
    rw [h2, hy]
    push_cast
    ring
  rw [e, le_abs]
  rcases hc with ⟨-, -, hn⟩ | ⟨-, ⟨-, hm⟩ | ⟨-, hm⟩⟩
  · exact absurd hd hn
  · rcases squareMove_y hm with ⟨-, hY⟩ | ⟨-, hY⟩ <;> rw [hY] <;> norm_num
  · rcases hexagonalMove_y hm with ⟨-, hY⟩ | ⟨-, hY⟩ <;> rw [hY] <;> norm_num

/-- C110 fails for hexagonal pixels: a connected pixel in an even row of the hexagonal part comes back one and a half rows away, which is another
pixel after rounding. -/
theorem C110_hexagonal (k : Kind) (s : Position) (c r : ℤ) (x y c' r' : K) (h : At k s ((c : K), (r : K)) x y)
    (hd : DiamondPixel k.isFull (c - s.1) (r - s.2)) (hp : HexagonalPart (c - s.1) (r - s.2)) (hev : Even (r - s.2))
    (hb : localToIndex fei4 [(x, y)] (some [0]) = .ok [(c', r')]) : r' = r + 3/2 ∧ round r' ≠ r := by
  obtain ⟨h1, h2⟩ := toIndex x y 0 c' r' hb
  obtain ⟨X, Y, -, hy, hc⟩ := at_cases k s c r x y h
  rw [Int.even_iff] at hev
  unfold HexagonalPart at hp
  have hY : Y = 75 := by
    rcases hc with ⟨-, -, hn⟩ | ⟨-, ⟨hi, -⟩ | ⟨-, hm⟩⟩
    · exact absurd hd hn
    · unfold InSquare at hi
      omega
    · have := hexagonalMove_y hm
      omega
  have e : r' = r + 3/2 := by
    rw [h2, hy, hY]
    push_cast
    ring
  refine ⟨e, ?_⟩
  rw [round_eq, e]
  intro hf
  rw [Int.floor_eq_iff] at hf
  linarith [hf.2]

/-- C110: the conversion back is possible if the diamond starts at an odd column and its rows are on the chip. -/
theorem C110_exists (k : Kind) (s : Position) (hs : Odd s.1) (h1 : 1 ≤ s.2) (h2 : s.2 + 61 ≤ 336) (c r : ℤ) (x y : K)
    (h : At k s ((c : K), (r : K)) x y) : ∃ c' r', localToIndex fei4 [(x, y)] (some [0]) = .ok [(c', r')] := by
  obtain ⟨⟨a, b⟩, a', b'⟩ := C109_inside k s hs h1 h2 c r x y h
  unfold localToIndex
  rw [if_pos (by simp [zOk, zClose]), if_pos]
  · exact ⟨_, _, rfl⟩
  · rw [List.all_eq_true]
    intro p hp
    rw [List.mem_singleton.mp hp]
    apply decide_eq_true
    simp only [fei4]
    refine ⟨⟨?_, ?_⟩, ?_, ?_⟩ <;> norm_num <;> linarith

/-- C110: a diamond that does not fit on the chip: the connected pixel in the last row gets a position that is rejected by the conversion back. -/
theorem C110_top (k : Kind) (s : Position) (c r : ℤ) (x y : K) (h : At k s ((c : K), (r : K)) x y)
    (hd : DiamondPixel k.isFull (c - s.1) (r - s.2)) (hp : HexagonalPart (c - s.1) (r - s.2)) (hev : Even (r - s.2)) (hr : r = 336) :
    localToIndex fei4 [(x, y)] (some [0]) = .error .outOfLimits := by
  have hY : y = 8450 := by
    obtain ⟨X, Y, -, hy, hc⟩ := at_cases k s c r x y h
    rw [Int.even_iff] at hev
    unfold HexagonalPart at hp
    have hY : Y = 75 := by
      rcases hc with ⟨-, -, hn⟩ | ⟨-, ⟨hi, -⟩ | ⟨-, hm⟩⟩
      · exact absurd hd hn
      · unfold InSquare at hi
        omega
      · have := hexagonalMove_y hm
        omega
    rw [hy, hY, hr]
    norm_num
  unfold localToIndex
  rw [if_pos (by simp [zOk, zClose]), if_neg]
  rw [List.all_eq_true]
  intro hall
  obtain ⟨-, -, h2⟩ := of_decide_eq_true (hall _ (List.mem_singleton.mpr rfl))
  simp only [fei4] at h2
  rw [hY] at h2
  norm_num at h2

end

/-! Concrete cases. -/

/-- First pixel of the square part and first pixel of the hexagonal part of a diamond at column 21, row 101. -/
example : indexToLocal (K := ℚ) .full (21, 101) [(21, 101), (22, 101), (21, 131), (1, 1)] =
    .ok [(-4875, -3350, 0), (-4525, -3375, 0), (-4807735/1000, -1800, 0), (-9975, -8375, 0)] := by decide +kernel

example : DiamondPixel true (21 - 21) (131 - 101) ∧ HexagonalPart (21 - 21) (131 - 101) ∧ Even ((131 : ℤ) - 101) ∧ Odd (21 : ℤ) := by
  refine ⟨⟨fun _ => ?_, .inr ⟨?_, ?_⟩⟩, ?_, ⟨15, by norm_num⟩, ⟨10, by norm_num⟩⟩
  · unfold Defect; omega
  · unfold HexagonalPart; omega
  · unfold HexagonalConnected; omega
  · unfold HexagonalPart; omega

example : localToIndex (K := ℚ) fei4 [(-4807735/1000, -1800)] (some [0]) = .ok [(21 + 26906/100000, 132.5)] := by decide +kernel

/-- A mean column between the columns of the cluster. -/
example : indexToLocal (K := ℚ) .full (21, 101) [(1.01, 1), (1, 1)] = .ok [(-9872.5, -8375, 0), (-9975, -8375, 0)] := by decide +kernel

/-- A diamond that does not fit on the chip. -/
example : indexToLocal (K := ℚ) .pseudo (1, 306) [(1, 336)] = .ok [(-9975 + 167.265, 8450, 0)] ∧
    DiamondPixel false (1 - 1) (336 - 306) := by
  refine ⟨by decide +kernel, fun h => absurd h (by simp), .inr ⟨?_, ?_⟩⟩
  · unfold HexagonalPart; omega
  · unfold HexagonalConnected; omega

/-- An index out of the limits. -/
example : indexToLocal (K := ℚ) .full (21, 101) [(81, 1)] = .error .outOfLimits := by decide +kernel

end BTA.Diamond.Props
