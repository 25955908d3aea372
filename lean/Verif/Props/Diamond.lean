import Verif.Lemmas.Diamond
import Verif.Spec.Diamond
import Verif.Props.Dut
import Mathlib.Tactic.IntervalCases
/-
Properties of the diamond sensors, beam_telescope_analysis/telescope/dut.py L581-809: C109, C110.
-/
namespace BTA.Diamond.Props
open BTA.Dut BTA.Diamond BTA.Spec

section
variable {K : Type} [Field K] [LinearOrder K] [IsStrictOrderedRing K] [FloorRing K]

/-- The result of the conversion of one pixel. -/
def At (k : Kind) (s : Position) (p : K × K) (x y : K) : Prop := indexToLocal k s [p] = .ok [(x, y, 0)]

/-! ### C109 -/

/-- C109: a ValueError is raised exactly if an index is outside of the 80 times 336 pixels of the chip. -/
theorem C109_error_iff (k : Kind) (s : Position) (idx : List (K × K)) (e : Err) :
    indexToLocal k s idx = .error e ↔ e = .outOfLimits ∧
      ∃ p ∈ idx, p.1 < 1/2 ∨ 80 + 1/2 < p.1 ∨ p.2 < 1/2 ∨ 336 + 1/2 < p.2 := by
  have h := BTA.Props.C34_index_error_iff (fei4 : Pixels K) idx e
  unfold indexToLocal
  cases hp : BTA.Dut.indexToLocal (fei4 : Pixels K) idx with
  | error e' =>
    rw [hp] at h
    dsimp only
    rw [Except.error.injEq] at h ⊢
    simpa [fei4] using h
  | ok ps =>
    rw [hp] at h
    dsimp only
    simpa [fei4] using h

theorem fei4_ok (idx : List (K × K)) (ps : List (K × K × K)) (h : BTA.Dut.indexToLocal (fei4 : Pixels K) idx = .ok ps) :
    ps = idx.map fun p => (250 * (p.1 - 81/2), 50 * (p.2 - 337/2), 0) := by
  rw [BTA.Props.C34_position _ _ _ h]
  refine List.map_congr_left fun p _ => ?_
  simp only [fei4]
  norm_num

theorem zipWith_map_self {α β γ : Type} (f : α → β → γ) (g : α → β) (l : List α) :
    List.zipWith f l (l.map g) = l.map fun a => f a (g a) := by
  induction l with
  | nil => rfl
  | cons a l ih => simp [ih]

/-- All positions in terms of `place`. -/
theorem indexToLocal_eq (k : Kind) (s : Position) (idx : List (K × K)) (out : List (K × K × K)) (h : indexToLocal k s idx = .ok out) :
    out = idx.map fun p => ((place k s p.1 p.2 (250 * (p.1 - 81/2), 50 * (p.2 - 337/2))).1,
      (place k s p.1 p.2 (250 * (p.1 - 81/2), 50 * (p.2 - 337/2))).2, 0) := by
  unfold indexToLocal at h
  cases hp : BTA.Dut.indexToLocal (fei4 : Pixels K) idx with
  | error e => rw [hp] at h; cases h
  | ok ps =>
    rw [hp] at h
    dsimp only at h
    injection h with h
    rw [fei4_ok idx ps hp, zipWith_map_self] at h
    rw [← h]

theorem indexToLocal_ok_iff (k : Kind) (s : Position) (idx : List (K × K)) :
    (∃ out, indexToLocal k s idx = .ok out) ↔
      ∀ p ∈ idx, (1/2 ≤ p.1 ∧ p.1 ≤ 80 + 1/2) ∧ (1/2 ≤ p.2 ∧ p.2 ≤ 336 + 1/2) := by
  constructor
  · rintro ⟨out, h⟩ p hp
    by_contra hc
    have := (C109_error_iff k s idx .outOfLimits).mpr ⟨rfl, p, hp, by
      simp only [not_and_or, not_le] at hc; tauto⟩
    rw [h] at this
    cases this
  · intro h
    cases ho : indexToLocal k s idx with
    | ok out => exact ⟨out, rfl⟩
    | error e =>
      obtain ⟨-, p, hp, hb⟩ := (C109_error_iff k s idx e).mp ho
      obtain ⟨⟨a, b⟩, c, d⟩ := h p hp
      rcases hb with hb | hb | hb | hb
      · exact absurd a (not_le.mpr hb)
      · exact absurd b (not_le.mpr hb)
      · exact absurd c (not_le.mpr hb)
      · exact absurd d (not_le.mpr hb)

/-- C109: an array is converted hit by hit: every hit gets the position it would get alone, in the plane of the sensor. -/
theorem C109_each (k : Kind) (s : Position) (idx : List (K × K)) (out : List (K × K × K)) (h : indexToLocal k s idx = .ok out) :
    List.Forall₂ (fun p q => At k s p q.1 q.2.1 ∧ q.2.2 = 0) idx out := by
  have hall := (indexToLocal_ok_iff k s idx).mp ⟨out, h⟩
  rw [indexToLocal_eq k s idx out h]
  rw [List.forall₂_map_right_iff, List.forall₂_same]
  intro p hp
  refine ⟨?_, rfl⟩
  obtain ⟨o, ho⟩ := (indexToLocal_ok_iff k s [p]).mpr (by
    intro q hq
    rw [List.mem_singleton.mp hq]
    exact hall p hp)
  have := indexToLocal_eq k s [p] o ho
  unfold At
  rw [ho, this]
  rfl

theorem at_eq (k : Kind) (s : Position) (p : K × K) (x y : K) (h : At k s p x y) :
    (x, y) = place k s p.1 p.2 (250 * (p.1 - 81/2), 50 * (p.2 - 337/2)) := by
  have := indexToLocal_eq k s [p] _ h
  rw [List.map_cons, List.map_nil] at this
  injection this with h1 _
  rw [Prod.mk.injEq, Prod.mk.injEq] at h1
  rw [h1.1, h1.2.1]

theorem at_cases (k : Kind) (s : Position) (c r : ℤ) (x y : K) (h : At k s ((c : K), (r : K)) x y) :
    ∃ X Y : ℤ, 1000 * x = ((250000 * c - 10125000 + bump c + X : ℤ) : K) ∧ y = ((50 * r - 8425 + Y : ℤ) : K) ∧
      ((X = 0 ∧ Y = 0 ∧ ¬DiamondPixel k.isFull (c - s.1) (r - s.2)) ∨
        (DiamondPixel k.isFull (c - s.1) (r - s.2) ∧
          ((InSquare s c r ∧ SquareMove k (c - s.1) (r - s.2) X Y) ∨
          (InHexagonal s c r ∧ HexagonalMove (c - s.1) (r - s.2 - 30) X Y)))) := by
  have h1 := at_eq k s _ x y h
  obtain ⟨X, Y, h2, h3⟩ := place_cases (K := K) k s c r (250 * ((c : K) - 81/2), 50 * ((r : K) - 337/2))
  dsimp only at h1
  rw [h2, Prod.mk.injEq] at h1
  refine ⟨X, Y, ?_, ?_, h3⟩
  · rw [h1.1]
    push_cast
    ring
  · rw [h1.2]
    push_cast
    ring

/-- The cases in a form for `omega`. -/
theorem at_omega (k : Kind) (s : Position) (c r : ℤ) (x y : K) (h : At k s ((c : K), (r : K)) x y) :
    ∃ A B : ℤ, 1000 * x = (A : K) ∧ y = (B : K) ∧
      ((A = 250000 * c - 10125000 + bump c ∧ B = 50 * r - 8425) ∨
       (∃ X Y, A = 250000 * c - 10125000 + bump c + X ∧ B = 50 * r - 8425 + Y ∧
        ((InSquare s c r ∧ SquareMove k (c - s.1) (r - s.2) X Y) ∨
        (InHexagonal s c r ∧ HexagonalMove (c - s.1) (r - s.2 - 30) X Y)))) := by
  obtain ⟨X, Y, h1, h2, h3⟩ := at_cases k s c r x y h
  refine ⟨_, _, h1, h2, ?_⟩
  rcases h3 with ⟨rfl, rfl, -⟩ | ⟨-, h3⟩
  · left; constructor <;> ring
  · exact .inr ⟨X, Y, rfl, rfl, h3⟩

theorem bump_cases (c : ℤ) : (c % 2 = 1 ∧ bump c = -100000) ∨ (c % 2 = 0 ∧ bump c = 100000) := by
  unfold bump
  split <;> omega

theorem squareMove_y {k : Kind} {a b X Y : ℤ} (h : SquareMove k a b X Y) : (b % 2 = 0 ∧ Y = 25) ∨ (b % 2 = 1 ∧ Y = -25) := by
  unfold SquareMove at h
  omega

theorem hexagonalMove_y {a b X Y : ℤ} (h : HexagonalMove a b X Y) : (b % 2 = 0 ∧ Y = 75) ∨ (b % 2 = 1 ∧ Y = 25) := by
  unfold HexagonalMove at h
  omega

theorem square_distinct (k : Kind) (s : Position) (c r c' r' X Y X' Y' : ℤ) (_ : s.1 ≤ c ∧ c < s.1 + 12 ∧ s.2 ≤ r ∧ r < s.2 + 30)
    (_ : s.1 ≤ c' ∧ c' < s.1 + 12 ∧ s.2 ≤ r' ∧ r' < s.2 + 30) (hm : SquareMove k (c - s.1) (r - s.2) X Y)
    (hm' : SquareMove k (c' - s.1) (r' - s.2) X' Y') (hx : 250000 * c + bump c + X = 250000 * c' + bump c' + X')
    (hy : 50 * r + Y = 50 * r' + Y') : c = c' ∧ r = r' := by
  have b := bump_cases c
  have b' := bump_cases c'
  have y := squareMove_y hm
  have y' := squareMove_y hm'
  generalize bump c = bc at *
  generalize bump c' = bc' at *
  unfold SquareMove at hm hm'
  cases k <;> simp only [reduceCtorEq, false_and, true_and, false_or, or_false] at hm hm'
  · rcases hm with hm | hm | hm | hm | hm | hm <;> rcases hm' with hm' | hm' | hm' | hm' | hm' | hm' <;> omega
  · rcases hm with hm | hm | hm | hm | hm | hm <;> rcases hm' with hm' | hm' | hm' | hm' | hm' | hm' <;> omega

set_option maxHeartbeats 1000000 in
theorem hexagonal_distinct (s : Position) (c r c' r' X Y X' Y' : ℤ) (_ : s.1 ≤ c ∧ c < s.1 + 12 ∧ s.2 + 30 ≤ r ∧ r < s.2 + 62)
    (_ : s.1 ≤ c' ∧ c' < s.1 + 12 ∧ s.2 + 30 ≤ r' ∧ r' < s.2 + 62) (hm : HexagonalMove (c - s.1) (r - s.2 - 30) X Y)
    (hm' : HexagonalMove (c' - s.1) (r' - s.2 - 30) X' Y') (hx : 250000 * c + bump c + X = 250000 * c' + bump c' + X')
    (hy : 50 * r + Y = 50 * r' + Y') : c = c' ∧ r = r' := by
  have b := bump_cases c
  have b' := bump_cases c'
  generalize bump c = bc at *
  generalize bump c' = bc' at *
  unfold HexagonalMove at hm hm'
  rcases hm with ⟨hm0, hm | hm | hm | hm⟩ | ⟨hm0, hm | hm | hm | hm⟩ <;>
    rcases hm' with ⟨hm0', hm' | hm' | hm' | hm'⟩ | ⟨hm0', hm' | hm' | hm' | hm'⟩ <;> omega

/-- C109: different pixels have different positions, whatever the position of the diamond on the chip. -/
theorem C109_distinct (k : Kind) (s : Position) (c r c' r' : ℤ) (x y x' y' : K) (h : At k s ((c : K), (r : K)) x y)
    (h' : At k s ((c' : K), (r' : K)) x' y') (hne : (c, r) ≠ (c', r')) : (x, y) ≠ (x', y') := by
  intro he
  rw [Prod.mk.injEq] at he
  obtain ⟨rfl, rfl⟩ := he
  obtain ⟨A, B, hA, hB, hcase⟩ := at_omega k s c r x y h
  obtain ⟨A', B', hA', hB', hcase'⟩ := at_omega k s c' r' x y h'
  have e1 : A = A' := by
    have : (A : K) = (A' : K) := by rw [← hA, ← hA']
    exact_mod_cast this
  have e2 : B = B' := by
    have : (B : K) = (B' : K) := by rw [← hB, ← hB']
    exact_mod_cast this
  subst e1 e2
  refine hne ?_
  rw [Prod.mk.injEq]
  have b := bump_cases c
  have b' := bump_cases c'
  unfold InSquare InHexagonal at hcase hcase'
  rcases hcase with hc | ⟨X, Y, hX, hY, ⟨hs, hm⟩ | ⟨hs, hm⟩⟩ <;> rcases hcase' with hc' | ⟨X', Y', hX', hY', ⟨hs', hm'⟩ | ⟨hs', hm'⟩⟩
  · omega
  · have e1 := squareMove_y hm'
    omega
  · have e2 := hexagonalMove_y hm'
    omega
  · have e1 := squareMove_y hm
    omega
  · exact square_distinct k s c r c' r' X Y X' Y' hs hs' hm hm' (by omega) (by omega)
  · have e1 := squareMove_y hm
    have e2 := hexagonalMove_y hm'
    omega
  · have e2 := hexagonalMove_y hm
    omega
  · have e1 := squareMove_y hm'
    have e2 := hexagonalMove_y hm
    omega
  · exact hexagonal_distinct s c r c' r' X Y X' Y' hs hs' hm hm' (by omega) (by omega)

/-- C109: which pixels are connected to an electrode of the diamond: exactly these have another y than in the chip. -/
theorem C109_connected (k : Kind) (s : Position) (c r : ℤ) (x y : K) (h : At k s ((c : K), (r : K)) x y) :
    y ≠ 50 * ((r : K) - 337/2) ↔ DiamondPixel k.isFull (c - s.1) (r - s.2) := by
  obtain ⟨X, Y, -, hy, hc⟩ := at_cases k s c r x y h
  have e : (50 : K) * ((r : K) - 337/2) = ((50 * r - 8425 : ℤ) : K) := by push_cast; ring
  rw [hy, e]
  have : ((50 * r - 8425 + Y : ℤ) : K) ≠ ((50 * r - 8425 : ℤ) : K) ↔ Y ≠ 0 := by
    rw [Ne, Int.cast_inj]
    omega
  rw [this]
  rcases hc with ⟨-, h0, hn⟩ | ⟨hp, ⟨-, hm⟩ | ⟨-, hm⟩⟩
  · simp [h0, hn]
  · have := squareMove_y hm
    simp only [hp, iff_true]
    omega
  · have := hexagonalMove_y hm
    simp only [hp, iff_true]
    omega

/-- C109: pixels that are not connected are at the bump bond of the chip: 100 um from the centre of the pixel, in pairs of columns. -/
theorem C109_chip (k : Kind) (s : Position) (c r : ℤ) (x y : K) (h : At k s ((c : K), (r : K)) x y)
    (hn : ¬DiamondPixel k.isFull (c - s.1) (r - s.2)) :
    y = 50 * ((r : K) - 337/2) ∧
      (Odd c → x = 250 * ((c : K) - 81/2) - 100) ∧ (Even c → x = 250 * ((c : K) - 81/2) + 100) := by
  obtain ⟨X, Y, hx, hy, hc⟩ := at_cases k s c r x y h
  rcases hc with ⟨rfl, rfl, -⟩ | ⟨hp, -⟩
  swap
  · exact absurd hp hn
  refine ⟨?_, ?_, ?_⟩
  · rw [hy]; push_cast; ring
  · intro ho
    rw [Int.odd_iff] at ho
    have : bump c = -100000 := by unfold bump; rw [if_pos ho]
    rw [this] at hx
    push_cast at hx
    linarith
  · intro he
    rw [Int.even_iff] at he
    have : bump c = 100000 := by unfold bump; rw [if_neg (by omega)]
    rw [this] at hx
    push_cast at hx
    linarith

/-- C109: the connected pixels of the square part form a grid of 125 um times 100 um if the diamond starts at an odd column. -/
theorem C109_square (k : Kind) (s : Position) (hs : Odd s.1) (c r c' r' : ℤ) (x y x' y' : K)
    (h : At k s ((c : K), (r : K)) x y) (h' : At k s ((c' : K), (r' : K)) x' y')
    (hp : SquarePart (c - s.1) (r - s.2)) (hp' : SquarePart (c' - s.1) (r' - s.2))
    (hd : DiamondPixel k.isFull (c - s.1) (r - s.2)) (hd' : DiamondPixel k.isFull (c' - s.1) (r' - s.2)) :
    ∃ i j : ℤ, x - x' = 125 * i ∧ y - y' = 100 * j := by
  obtain ⟨X, Y, hx, hy, hc⟩ := at_cases k s c r x y h
  obtain ⟨X', Y', hx', hy', hc'⟩ := at_cases k s c' r' x' y' h'
  have hm : SquareMove k (c - s.1) (r - s.2) X Y := by
    rcases hc with ⟨-, -, hn⟩ | ⟨-, ⟨-, hm⟩ | ⟨hh, -⟩⟩
    · exact absurd hd hn
    · exact hm
    · unfold InHexagonal at hh
      unfold SquarePart at hp
      omega
  have hm' : SquareMove k (c' - s.1) (r' - s.2) X' Y' := by
    rcases hc' with ⟨-, -, hn⟩ | ⟨-, ⟨-, hm⟩ | ⟨hh, -⟩⟩
    · exact absurd hd' hn
    · exact hm
    · unfold InHexagonal at hh
      unfold SquarePart at hp'
      omega
  rw [Int.odd_iff] at hs
  have key : ∀ (c r X Y : ℤ), SquareMove k (c - s.1) (r - s.2) X Y →
      ∃ i j : ℤ, 250000 * c - 10125000 + bump c + X = 125000 * i ∧ 50 * r + Y = 50 * s.2 + 25 + 100 * j := by
    intro c r X Y hm
    have b := bump_cases c
    have y := squareMove_y hm
    generalize bump c = bc at *
    unfold SquareMove at hm
    refine ⟨(250000 * c - 10125000 + bc + X) / 125000, (50 * r + Y - 50 * s.2 - 25) / 100, ?_, ?_⟩
    · cases k <;> simp only [reduceCtorEq, false_and, true_and, false_or, or_false] at hm <;>
        rcases hm with hm | hm | hm | hm | hm | hm <;> omega
    · omega
  obtain ⟨i, j, hi, hj⟩ := key c r X Y hm
  obtain ⟨i', j', hi', hj'⟩ := key c' r' X' Y' hm'
  refine ⟨i - i', j - j', ?_, ?_⟩
  · rw [hi] at hx
    rw [hi'] at hx'
    push_cast at hx hx' ⊢
    linarith
  · have e : (50 * r - 8425 + Y) - (50 * r' - 8425 + Y') = 100 * (j - j') := by omega
    rw [hy, hy', ← Int.cast_sub, e]
    push_cast
    ring

set_option maxHeartbeats 2000000 in
theorem hexagonal_apart (s : Position) (hodd : s.1 % 2 = 1) (c r c' r' X Y X' Y' : ℤ)
    (_ : s.1 ≤ c ∧ c < s.1 + 12 ∧ s.2 + 30 ≤ r ∧ r < s.2 + 62)
    (_ : s.1 ≤ c' ∧ c' < s.1 + 12 ∧ s.2 + 30 ≤ r' ∧ r' < s.2 + 62) (hm : HexagonalMove (c - s.1) (r - s.2 - 30) X Y)
    (hm' : HexagonalMove (c' - s.1) (r' - s.2 - 30) X' Y') (D E : ℤ) (hD : D = 250000 * c + bump c + X - (250000 * c' + bump c' + X'))
    (hE : E = 50 * r + Y - (50 * r' + Y')) :
    (c = c' ∧ r = r') ∨ 200 ≤ E ∨ E ≤ -200 ∨ (E = 0 ∧ (115470 ≤ D ∨ D ≤ -115470)) ∨
      ((E = 100 ∨ E = -100) ∧ (57735 ≤ D ∨ D ≤ -57735)) := by
  have b := bump_cases c
  have b' := bump_cases c'
  generalize bump c = bc at *
  generalize bump c' = bc' at *
  unfold HexagonalMove at hm hm'
  rcases hm with ⟨hm0, hm | hm | hm | hm⟩ | ⟨hm0, hm | hm | hm | hm⟩ <;>
    rcases hm' with ⟨hm0', hm' | hm' | hm' | hm'⟩ | ⟨hm0', hm' | hm' | hm' | hm'⟩ <;> omega

theorem sq_le_of {a b : ℤ} (hb : 0 ≤ b) (h : b ≤ a ∨ a ≤ -b) : b ^ 2 ≤ a ^ 2 := by
  rw [sq_le_sq]
  rw [abs_of_nonneg hb]
  rcases h with h | h
  · exact h.trans (le_abs_self a)
  · exact le_trans (by omega) (neg_le_abs a)

/-- C109: connected pixels of the hexagonal part are at least 115 um from each other if the diamond starts at an odd column. -/
theorem C109_hexagonal (k : Kind) (s : Position) (hs : Odd s.1) (c r c' r' : ℤ) (x y x' y' : K)
    (h : At k s ((c : K), (r : K)) x y) (h' : At k s ((c' : K), (r' : K)) x' y') (hne : (c, r) ≠ (c', r'))
    (hp : HexagonalPart (c - s.1) (r - s.2)) (hp' : HexagonalPart (c' - s.1) (r' - s.2))
    (hd : DiamondPixel k.isFull (c - s.1) (r - s.2)) (hd' : DiamondPixel k.isFull (c' - s.1) (r' - s.2)) :
    115 ^ 2 ≤ (x - x') ^ 2 + (y - y') ^ 2 := by
  obtain ⟨X, Y, hx, hy, hc⟩ := at_cases k s c r x y h
  obtain ⟨X', Y', hx', hy', hc'⟩ := at_cases k s c' r' x' y' h'
  unfold HexagonalPart at hp hp'
  have hm : HexagonalMove (c - s.1) (r - s.2 - 30) X Y := by
    rcases hc with ⟨-, -, hn⟩ | ⟨-, ⟨hh, -⟩ | ⟨-, hm⟩⟩
    · exact absurd hd hn
    · unfold InSquare at hh
      omega
    · exact hm
  have hm' : HexagonalMove (c' - s.1) (r' - s.2 - 30) X' Y' := by
    rcases hc' with ⟨-, -, hn⟩ | ⟨-, ⟨hh, -⟩ | ⟨-, hm⟩⟩
    · exact absurd hd' hn
    · unfold InSquare at hh
      omega
    · exact hm
  rw [Int.odd_iff] at hs
  obtain ⟨D, hD⟩ : ∃ D : ℤ, D = 250000 * c + bump c + X - (250000 * c' + bump c' + X') := ⟨_, rfl⟩
  obtain ⟨E, hE⟩ : ∃ E : ℤ, E = 50 * r + Y - (50 * r' + Y') := ⟨_, rfl⟩
  have key := hexagonal_apart s hs c r c' r' X Y X' Y' (by omega) (by omega) hm hm' D E hD hE
  have main : (115000 : ℤ) ^ 2 ≤ D ^ 2 + (1000 * E) ^ 2 := by
    rcases key with hk | hk | hk | ⟨h0, hk⟩ | ⟨h0, hk⟩
    · exact absurd (Prod.ext hk.1 hk.2) hne
    · have := sq_le_of (a := 1000 * E) (b := 115000) (by norm_num) (.inl (by omega))
      nlinarith [sq_nonneg D]
    · have := sq_le_of (a := 1000 * E) (b := 115000) (by norm_num) (.inr (by omega))
      nlinarith [sq_nonneg D]
    · have := sq_le_of (a := D) (b := 115000) (by norm_num) (by omega)
      nlinarith [sq_nonneg (1000 * E)]
    · have h1 := sq_le_of (a := D) (b := 57735) (by norm_num) (by omega)
      have h2 := sq_le_of (a := 1000 * E) (b := 100000) (by norm_num) (by omega)
      norm_num at h1 h2 ⊢
      linarith
  have e1 : 1000 * (x - x') = (D : K) := by
    rw [hD, mul_sub, hx, hx', ← Int.cast_sub]
    congr 1
    ring
  have e2 : y - y' = (E : K) := by
    rw [hE, hy, hy', ← Int.cast_sub]
    congr 1
    ring
  have main' : (115000 : K) ^ 2 ≤ (D : K) ^ 2 + (1000 * (E : K)) ^ 2 := by exact_mod_cast main
  rw [← e1, ← e2] at main'
  linarith

/-- C109: every pixel is inside of the chip if the diamond starts at an odd column and its 62 rows are on the chip. -/
theorem C109_inside (k : Kind) (s : Position) (hs : Odd s.1) (h1 : 1 ≤ s.2) (h2 : s.2 + 61 ≤ 336) (c r : ℤ) (x y : K)
    (h : At k s ((c : K), (r : K)) x y) : (-10000 ≤ x ∧ x ≤ 10000) ∧ (-8400 ≤ y ∧ y ≤ 8400) := by
  have hin := (indexToLocal_ok_iff k s [((c : K), (r : K))]).mp ⟨_, h⟩ _ (List.mem_singleton.mpr rfl)
  dsimp only at hin
  have hc1 : 1 ≤ c ∧ c ≤ 80 := by
    obtain ⟨⟨a, b⟩, -⟩ := hin
    constructor
    · by_contra hc
      have : (c : K) ≤ 0 := by exact_mod_cast (by omega : c ≤ 0)
      linarith
    · by_contra hc
      have : (81 : K) ≤ c := by exact_mod_cast (by omega : 81 ≤ c)
      linarith
  have hr1 : 1 ≤ r ∧ r ≤ 336 := by
    obtain ⟨-, a, b⟩ := hin
    constructor
    · by_contra hc
      have : (r : K) ≤ 0 := by exact_mod_cast (by omega : r ≤ 0)
      linarith
    · by_contra hc
      have : (337 : K) ≤ r := by exact_mod_cast (by omega : 337 ≤ r)
      linarith
  obtain ⟨X, Y, hx, hy, hc⟩ := at_cases k s c r x y h
  rw [Int.odd_iff] at hs
  have b := bump_cases c
  have key : (-10000000 ≤ 250000 * c - 10125000 + bump c + X ∧ 250000 * c - 10125000 + bump c + X ≤ 10000000) ∧
      (-8400 ≤ 50 * r - 8425 + Y ∧ 50 * r - 8425 + Y ≤ 8400) := by
    generalize bump c = bc at *
    rcases hc with ⟨h1, h2, -⟩ | ⟨-, ⟨hi, hm⟩ | ⟨hi, hm⟩⟩
    · omega
    · have hY := squareMove_y hm
      unfold InSquare at hi
      unfold SquareMove at hm
      omega
    · have hY := hexagonalMove_y hm
      unfold InHexagonal at hi
      unfold HexagonalMove at hm
      omega
  obtain ⟨⟨k1, k2⟩, k3, k4⟩ := key
  have k1' : ((-10000000 : ℤ) : K) ≤ ((250000 * c - 10125000 + bump c + X : ℤ) : K) := by exact_mod_cast k1
  have k2' : ((250000 * c - 10125000 + bump c + X : ℤ) : K) ≤ ((10000000 : ℤ) : K) := by exact_mod_cast k2
  have k3' : ((-8400 : ℤ) : K) ≤ ((50 * r - 8425 + Y : ℤ) : K) := by exact_mod_cast k3
  have k4' : ((50 * r - 8425 + Y : ℤ) : K) ≤ ((8400 : ℤ) : K) := by exact_mod_cast k4
  rw [← hx] at k1' k2'
  rw [← hy] at k3' k4'
  push_cast at k1' k2' k3' k4'
  refine ⟨⟨?_, ?_⟩, k3', k4'⟩ <;> linarith

end
end BTA.Diamond.Props
