import Verif.Model.Diamond
import Verif.Spec.Diamond
import Mathlib.Data.Rat.Floor
import Mathlib.Tactic.Ring
import Mathlib.Tactic.NormNum
import Mathlib.Tactic.Linarith
import Mathlib.Tactic.FieldSimp
/-
Lemmas about the positions of the pixels of the diamond sensors.
-/
namespace BTA.Diamond
open BTA.Dut BTA.Spec

section
variable {K : Type} [Field K] [LinearOrder K] [IsStrictOrderedRing K] [FloorRing K]

theorem npMod_int (c : ℤ) (n : ℕ) (hn : 0 < n) : npMod (c : K) (n : K) = ((c % (n : ℤ) : ℤ) : K) := by
  unfold npMod
  have hn' : (0 : K) < n := by exact_mod_cast hn
  have h : ⌊(c : K) / (n : K)⌋ = c / (n : ℤ) := by
    rw [Int.floor_eq_iff]
    have e := Int.mul_ediv_add_emod c n
    have e1 : ((n : ℤ) : K) * ((c / (n : ℤ) : ℤ) : K) + ((c % (n : ℤ) : ℤ) : K) = (c : K) := by exact_mod_cast e
    have e2 : (0 : K) ≤ ((c % (n : ℤ) : ℤ) : K) := by exact_mod_cast Int.emod_nonneg c (by omega)
    have e3 : ((c % (n : ℤ) : ℤ) : K) < ((n : ℤ) : K) := by exact_mod_cast Int.emod_lt_of_pos c (by omega)
    simp only [Int.cast_natCast] at e1 e2 e3
    constructor
    · rw [le_div_iff₀ hn']; linarith
    · rw [div_lt_iff₀ hn']; linarith
  rw [h]
  have e := Int.mul_ediv_add_emod c n
  have e1 : ((n : ℤ) : K) * ((c / (n : ℤ) : ℤ) : K) + ((c % (n : ℤ) : ℤ) : K) = (c : K) := by exact_mod_cast e
  simp only [Int.cast_natCast] at e1
  linarith

theorem npMod_two (c : ℤ) : npMod (c : K) 2 = ((c % 2 : ℤ) : K) := by
  have := npMod_int (K := K) c 2 (by norm_num)
  simpa using this

theorem npMod_four (c : ℤ) : npMod (c : K) 4 = ((c % 4 : ℤ) : K) := by
  have := npMod_int (K := K) c 4 (by norm_num)
  simpa using this

/-- The pixel is in the part of the diamond with square pixels. -/
def InSquare (s : Position) (c r : ℤ) : Prop := s.1 ≤ c ∧ c < s.1 + 12 ∧ s.2 ≤ r ∧ r < s.2 + 30

/-- The pixel is in the part of the diamond with hexagonal pixels. -/
def InHexagonal (s : Position) (c r : ℤ) : Prop := s.1 ≤ c ∧ c < s.1 + 12 ∧ s.2 + 30 ≤ r ∧ r < s.2 + 62

omit [FloorRing K] in
theorem inSquare_int (s : Position) (c r : ℤ) : inSquare s (c : K) (r : K) = true ↔ InSquare s c r := by
  unfold inSquare InSquare
  simp only [Bool.and_eq_true, decide_eq_true_eq, and_assoc]
  norm_cast

omit [FloorRing K] in
theorem inHexagonal_int (s : Position) (c r : ℤ) : inHexagonal s (c : K) (r : K) = true ↔ InHexagonal s c r := by
  unfold inHexagonal InHexagonal
  simp only [Bool.and_eq_true, decide_eq_true_eq, and_assoc]
  norm_cast

omit [FloorRing K] in
theorem squareSelected_int (k : Kind) (s : Position) (c r : ℤ) (h : squareSelected k s (c : K) (r : K) = true) : InSquare s c r := by
  rw [← inSquare_int (K := K)]
  cases k <;> simp_all [squareSelected]

omit [FloorRing K] in
theorem hexagonalSelected_int (k : Kind) (s : Position) (c r : ℤ) (h : hexagonalSelected k s (c : K) (r : K) = true) :
    InHexagonal s c r := by
  rw [← inHexagonal_int (K := K)]
  cases k <;> simp_all [hexagonalSelected]

/-- The sensor has defects. -/
def Kind.isFull : Kind → Bool
  | .full => true
  | .pseudo => false

omit [FloorRing K] in
theorem squareDefect_int (s : Position) (c r : ℤ) (h : InSquare s c r) :
    squareDefect s (c : K) (r : K) = true ↔ Defect (c - s.1) (r - s.2) := by
  unfold squareDefect Defect
  unfold InSquare at h
  simp only [Bool.or_eq_true, Bool.and_eq_true, decide_eq_true_eq]
  norm_cast
  omega

omit [FloorRing K] in
theorem hexagonalDefect_int (s : Position) (c r : ℤ) (h : InHexagonal s c r) :
    hexagonalDefect s (c : K) (r : K) = true ↔ Defect (c - s.1) (r - s.2) := by
  unfold hexagonalDefect Defect
  unfold InHexagonal at h
  simp only [Bool.or_eq_true, Bool.and_eq_true, decide_eq_true_eq]
  norm_cast
  omega

omit [FloorRing K] in
theorem squareSelected_iff (k : Kind) (s : Position) (c r : ℤ) :
    squareSelected k s (c : K) (r : K) = true ↔ InSquare s c r ∧ (k.isFull = true → ¬Defect (c - s.1) (r - s.2)) := by
  cases k
  · simp only [squareSelected, Kind.isFull, Bool.and_eq_true, inSquare_int, Bool.not_eq_true', forall_true_left]
    refine and_congr_right fun h => ?_
    rw [← squareDefect_int (K := K) s c r h]
    simp
  · simp [squareSelected, Kind.isFull, inSquare_int]

omit [FloorRing K] in
theorem hexagonalSelected_iff (k : Kind) (s : Position) (c r : ℤ) :
    hexagonalSelected k s (c : K) (r : K) = true ↔ InHexagonal s c r ∧ (k.isFull = true → ¬Defect (c - s.1) (r - s.2)) := by
  cases k
  · simp only [hexagonalSelected, Kind.isFull, Bool.and_eq_true, inHexagonal_int, Bool.not_eq_true', forall_true_left]
    refine and_congr_right fun h => ?_
    rw [← hexagonalDefect_int (K := K) s c r h]
    simp
  · simp [hexagonalSelected, Kind.isFull, inHexagonal_int]

/-- No rule is applied if the hit is not selected. -/
theorem foldl_not (rules : List (Rule K)) (n a b : K) (p : K × K) : rules.foldl (applyRule false n a b) p = p := by
  induction rules with
  | nil => rfl
  | cons u us ih =>
    rw [List.foldl_cons]
    have : applyRule false n a b p u = p := by simp [applyRule]
    rw [this, ih]

/-- Rules for other groups are not applied. -/
theorem foldl_none (rules : List (Rule K)) (sel : Bool) (n a b : K) (p : K × K)
    (h : ∀ u ∈ rules, ¬(npMod a 4 = u.column ∧ npMod b n = u.row)) : rules.foldl (applyRule sel n a b) p = p := by
  induction rules with
  | nil => rfl
  | cons u us ih =>
    rw [List.foldl_cons]
    have : applyRule sel n a b p u = p := by
      unfold applyRule
      rw [if_neg]
      rintro ⟨-, h1⟩
      exact h u (by simp) h1
    rw [this]
    exact ih fun v hv => h v (by simp [hv])

/-- At most one of the rules is applied if they are for different groups. -/
theorem foldl_rules (rules : List (Rule K)) (hd : rules.Pairwise fun u v => ¬(u.column = v.column ∧ u.row = v.row))
    (sel : Bool) (n a b : K) (p : K × K) :
    (∃ u ∈ rules, sel = true ∧ npMod a 4 = u.column ∧ npMod b n = u.row ∧
      rules.foldl (applyRule sel n a b) p = (p.1 + u.dx, p.2 + u.dy)) ∨
    ((sel = false ∨ ∀ u ∈ rules, ¬(npMod a 4 = u.column ∧ npMod b n = u.row)) ∧ rules.foldl (applyRule sel n a b) p = p) := by
  induction rules with
  | nil => exact .inr ⟨.inr (by simp), rfl⟩
  | cons u us ih =>
    rw [List.pairwise_cons] at hd
    rw [List.foldl_cons]
    by_cases hs : sel = true
    · by_cases hu : npMod a 4 = u.column ∧ npMod b n = u.row
      · left
        refine ⟨u, by simp, hs, hu.1, hu.2, ?_⟩
        have : applyRule sel n a b p u = (p.1 + u.dx, p.2 + u.dy) := by
          unfold applyRule
          rw [if_pos ⟨hs, hu⟩]
        rw [this]
        refine foldl_none us sel n a b _ fun v hv h => hd.1 v hv ?_
        exact ⟨hu.1.symm.trans h.1, hu.2.symm.trans h.2⟩
      · have : applyRule sel n a b p u = p := by
          unfold applyRule
          rw [if_neg (fun h => hu h.2)]
        rw [this]
        rcases ih hd.2 with ⟨v, hv, h1⟩ | ⟨h1, h2⟩
        · exact .inl ⟨v, by simp [hv], h1⟩
        · refine .inr ⟨?_, h2⟩
          rcases h1 with h1 | h1
          · exact .inl h1
          · refine .inr fun v hv => ?_
            rcases List.mem_cons.mp hv with rfl | hv
            · exact hu
            · exact h1 v hv
    · have hs : sel = false := by simpa using hs
      subst hs
      refine .inr ⟨.inl rfl, ?_⟩
      have : applyRule false n a b p u = p := by simp [applyRule]
      rw [this, foldl_not]

omit [FloorRing K] in
theorem squareRules_distinct (k : Kind) :
    (squareRules (K := K) k).Pairwise fun u v => ¬(u.column = v.column ∧ u.row = v.row) := by
  cases k <;> norm_num [squareRules, List.pairwise_cons]

omit [FloorRing K] in
theorem hexagonalRules_distinct :
    (hexagonalRules (K := K)).Pairwise fun u v => ¬(u.column = v.column ∧ u.row = v.row) := by
  norm_num [hexagonalRules, List.pairwise_cons]

/-- How a pixel of the square part is moved, in units of 0.001 um and um. -/
def SquareMove (k : Kind) (a b X Y : ℤ) : Prop :=
  (a % 4 = 0 ∧ b % 2 = 0 ∧ X = 100000 ∧ Y = 25) ∨ (a % 4 = 0 ∧ b % 2 = 1 ∧ X = 225000 ∧ Y = -25) ∨
  (a % 4 = 1 ∧ b % 2 = 1 ∧ X = -100000 ∧ Y = -25) ∨
  (k = .full ∧ a % 4 = 2 ∧ b % 2 = 1 ∧ X = 100000 ∧ Y = -25) ∨ (k = .pseudo ∧ a % 4 = 2 ∧ b % 2 = 0 ∧ X = 100000 ∧ Y = 25) ∨
  (a % 4 = 3 ∧ b % 2 = 0 ∧ X = -100000 ∧ Y = 25) ∨ (a % 4 = 3 ∧ b % 2 = 1 ∧ X = -225000 ∧ Y = -25)

/-- How a pixel of the hexagonal part is moved. -/
def HexagonalMove (a b X Y : ℤ) : Prop :=
  ((a % 4 = 0 ∨ a % 4 = 2) ∧
    ((b % 4 = 0 ∧ X = 167265 ∧ Y = 75) ∨ (b % 4 = 1 ∧ X = 51785 ∧ Y = 25) ∨ (b % 4 = 2 ∧ X = 109525 ∧ Y = 75) ∨
      (a % 4 = 2 ∧ b % 4 = 3 ∧ X = 225000 ∧ Y = 25))) ∨
  ((a % 4 = 1 ∨ a % 4 = 3) ∧
    ((b % 4 = 0 ∧ X = -167265 ∧ Y = 75) ∨ (b % 4 = 1 ∧ X = -51785 ∧ Y = 25) ∨ (b % 4 = 2 ∧ X = -109525 ∧ Y = 75) ∨
      (a % 4 = 1 ∧ b % 4 = 3 ∧ X = -225000 ∧ Y = 25)))

/-- Shift of the bump bond. -/
def bump (c : ℤ) : ℤ := if c % 2 = 1 then -100000 else 100000

theorem bumpX_int (c : ℤ) (x : K) : bumpX (c : K) x = x + (bump c : ℤ) / 1000 := by
  unfold bumpX bump
  dsimp only
  rw [npMod_two]
  rcases Int.emod_two_eq_zero_or_one c with h | h
  · rw [h]; norm_num
  · rw [h]; norm_num; ring

theorem square_move (k : Kind) (a b : ℤ) (u : Rule K) (hu : u ∈ squareRules k) (ha : npMod (a : K) 4 = u.column)
    (hb : npMod (b : K) 2 = u.row) : ∃ X Y : ℤ, SquareMove k a b X Y ∧ u.dx = (X : K) / 1000 ∧ u.dy = (Y : K) := by
  rw [npMod_four] at ha
  rw [npMod_two] at hb
  cases k
  · simp only [squareRules, List.mem_cons, List.not_mem_nil, or_false] at hu
    rcases hu with rfl | rfl | rfl | rfl | rfl | rfl <;> dsimp only at ha hb ⊢ <;> norm_cast at ha hb
    · exact ⟨100000, 25, by unfold SquareMove; simp [ha, hb], by norm_num, by norm_num⟩
    · exact ⟨225000, -25, by unfold SquareMove; simp [ha, hb], by norm_num, by norm_num⟩
    · exact ⟨-100000, -25, by unfold SquareMove; simp [ha, hb], by norm_num, by norm_num⟩
    · exact ⟨100000, -25, by unfold SquareMove; simp [ha, hb], by norm_num, by norm_num⟩
    · exact ⟨-100000, 25, by unfold SquareMove; simp [ha, hb], by norm_num, by norm_num⟩
    · exact ⟨-225000, -25, by unfold SquareMove; simp [ha, hb], by norm_num, by norm_num⟩
  · simp only [squareRules, List.mem_cons, List.not_mem_nil, or_false] at hu
    rcases hu with rfl | rfl | rfl | rfl | rfl | rfl <;> dsimp only at ha hb ⊢ <;> norm_cast at ha hb
    · exact ⟨100000, 25, by unfold SquareMove; simp [ha, hb], by norm_num, by norm_num⟩
    · exact ⟨225000, -25, by unfold SquareMove; simp [ha, hb], by norm_num, by norm_num⟩
    · exact ⟨-100000, -25, by unfold SquareMove; simp [ha, hb], by norm_num, by norm_num⟩
    · exact ⟨100000, 25, by unfold SquareMove; simp [ha, hb], by norm_num, by norm_num⟩
    · exact ⟨-100000, 25, by unfold SquareMove; simp [ha, hb], by norm_num, by norm_num⟩
    · exact ⟨-225000, -25, by unfold SquareMove; simp [ha, hb], by norm_num, by norm_num⟩

theorem hexagonal_move (a b : ℤ) (u : Rule K) (hu : u ∈ hexagonalRules) (ha : npMod (a : K) 4 = u.column)
    (hb : npMod (b : K) 4 = u.row) : ∃ X Y : ℤ, HexagonalMove a b X Y ∧ u.dx = (X : K) / 1000 ∧ u.dy = (Y : K) := by
  rw [npMod_four] at ha hb
  simp only [hexagonalRules, List.mem_cons, List.not_mem_nil, or_false] at hu
  rcases hu with rfl | rfl | rfl | rfl | rfl | rfl | rfl | rfl | rfl | rfl | rfl | rfl | rfl | rfl <;> dsimp only at ha hb ⊢ <;>
    norm_cast at ha hb
  · exact ⟨167265, 75, by unfold HexagonalMove; simp [ha, hb], by norm_num, by norm_num⟩
  · exact ⟨51785, 25, by unfold HexagonalMove; simp [ha, hb], by norm_num, by norm_num⟩
  · exact ⟨109525, 75, by unfold HexagonalMove; simp [ha, hb], by norm_num, by norm_num⟩
  · exact ⟨-167265, 75, by unfold HexagonalMove; simp [ha, hb], by norm_num, by norm_num⟩
  · exact ⟨-51785, 25, by unfold HexagonalMove; simp [ha, hb], by norm_num, by norm_num⟩
  · exact ⟨-109525, 75, by unfold HexagonalMove; simp [ha, hb], by norm_num, by norm_num⟩
  · exact ⟨-225000, 25, by unfold HexagonalMove; simp [ha, hb], by norm_num, by norm_num⟩
  · exact ⟨167265, 75, by unfold HexagonalMove; simp [ha, hb], by norm_num, by norm_num⟩
  · exact ⟨51785, 25, by unfold HexagonalMove; simp [ha, hb], by norm_num, by norm_num⟩
  · exact ⟨109525, 75, by unfold HexagonalMove; simp [ha, hb], by norm_num, by norm_num⟩
  · exact ⟨225000, 25, by unfold HexagonalMove; simp [ha, hb], by norm_num, by norm_num⟩
  · exact ⟨-167265, 75, by unfold HexagonalMove; simp [ha, hb], by norm_num, by norm_num⟩
  · exact ⟨-51785, 25, by unfold HexagonalMove; simp [ha, hb], by norm_num, by norm_num⟩
  · exact ⟨-109525, 75, by unfold HexagonalMove; simp [ha, hb], by norm_num, by norm_num⟩

omit [Field K] [LinearOrder K] [IsStrictOrderedRing K] [FloorRing K] in
theorem square_pixel {k : Kind} {s : Position} {c r X Y : ℤ} (h : InSquare s c r)
    (hd : k.isFull = true → ¬Defect (c - s.1) (r - s.2)) (hm : SquareMove k (c - s.1) (r - s.2) X Y) :
    DiamondPixel k.isFull (c - s.1) (r - s.2) := by
  refine ⟨hd, .inl ⟨?_, ?_⟩⟩
  · unfold InSquare at h
    unfold SquarePart
    omega
  · unfold SquareConnected
    unfold SquareMove at hm
    cases k <;> simp [Kind.isFull] at hm ⊢ <;> omega

theorem hexagonal_pixel {k : Kind} {s : Position} {c r X Y : ℤ} (h : InHexagonal s c r)
    (hd : k.isFull = true → ¬Defect (c - s.1) (r - s.2)) (hm : HexagonalMove (c - s.1) (r - s.2 - 30) X Y) :
    DiamondPixel k.isFull (c - s.1) (r - s.2) := by
  refine ⟨hd, .inr ⟨?_, ?_⟩⟩
  · unfold InHexagonal at h
    unfold HexagonalPart
    omega
  · unfold HexagonalConnected
    unfold HexagonalMove at hm
    omega

theorem not_pixel {k : Kind} {s : Position} {c r : ℤ}
    (h1 : squareSelected k s (c : K) (r : K) = false ∨
      ∀ u ∈ squareRules (K := K) k, ¬(npMod ((c - s.1 : ℤ) : K) 4 = u.column ∧ npMod ((r - s.2 : ℤ) : K) 2 = u.row))
    (h2 : hexagonalSelected k s (c : K) (r : K) = false ∨
      ∀ u ∈ hexagonalRules (K := K), ¬(npMod ((c - s.1 : ℤ) : K) 4 = u.column ∧ npMod ((r - s.2 - 30 : ℤ) : K) 4 = u.row)) :
    ¬DiamondPixel k.isFull (c - s.1) (r - s.2) := by
  rintro ⟨hd, ⟨hp, hc⟩ | ⟨hp, hc⟩⟩
  · have hs : InSquare s c r := by
      unfold SquarePart at hp
      unfold InSquare
      omega
    have hsel := (squareSelected_iff (K := K) k s c r).mpr ⟨hs, hd⟩
    rcases h1 with h1 | h1
    · rw [hsel] at h1; cases h1
    · rw [npMod_four, npMod_two] at h1
      unfold SquareConnected at hc
      cases k
      all_goals
        simp only [squareRules, List.forall_mem_cons, List.not_mem_nil, false_imp_iff, implies_true, and_true] at h1
        norm_cast at h1
        simp [Kind.isFull] at hc
        omega
  · have hs : InHexagonal s c r := by
      unfold HexagonalPart at hp
      unfold InHexagonal
      omega
    have hsel := (hexagonalSelected_iff (K := K) k s c r).mpr ⟨hs, hd⟩
    rcases h2 with h2 | h2
    · rw [hsel] at h2; cases h2
    · rw [npMod_four, npMod_four] at h2
      unfold HexagonalConnected at hc
      simp only [hexagonalRules, List.forall_mem_cons, List.not_mem_nil, false_imp_iff, implies_true, and_true] at h2
      norm_cast at h2
      have ha : (c - s.1) % 4 = 0 ∨ (c - s.1) % 4 = 1 ∨ (c - s.1) % 4 = 2 ∨ (c - s.1) % 4 = 3 := by omega
      have hb : (r - s.2 - 30) % 4 = 0 ∨ (r - s.2 - 30) % 4 = 1 ∨ (r - s.2 - 30) % 4 = 2 ∨ (r - s.2 - 30) % 4 = 3 := by omega
      rcases ha with ha | ha | ha | ha <;> rcases hb with hb | hb | hb | hb <;> simp [ha, hb] at h2 hc

/-- The position of a pixel: moved by one rule if it is connected, otherwise not. -/
theorem place_cases (k : Kind) (s : Position) (c r : ℤ) (p : K × K) :
    ∃ X Y : ℤ, place k s (c : K) (r : K) p = (p.1 + ((bump c + X : ℤ) : K) / 1000, p.2 + (Y : K)) ∧
      ((X = 0 ∧ Y = 0 ∧ ¬DiamondPixel k.isFull (c - s.1) (r - s.2)) ∨
        (DiamondPixel k.isFull (c - s.1) (r - s.2) ∧
          ((InSquare s c r ∧ SquareMove k (c - s.1) (r - s.2) X Y) ∨
          (InHexagonal s c r ∧ HexagonalMove (c - s.1) (r - s.2 - 30) X Y)))) := by
  unfold place
  dsimp only
  rw [bumpX_int]
  have ec : (c : K) - (s.1 : K) = ((c - s.1 : ℤ) : K) := by push_cast; ring
  have er : (r : K) - (s.2 : K) = ((r - s.2 : ℤ) : K) := by push_cast; ring
  have er2 : (r : K) - (s.2 : K) - 30 = ((r - s.2 - 30 : ℤ) : K) := by push_cast; ring
  rw [er2, ec, er]
  rcases foldl_rules (squareRules k) (squareRules_distinct k) (squareSelected k s (c : K) (r : K)) 2 ((c - s.1 : ℤ) : K)
    ((r - s.2 : ℤ) : K) (p.1 + (bump c : ℤ) / 1000, p.2) with ⟨u, hu, hsel, ha, hb, h⟩ | ⟨hn1, h⟩
  · rw [h]
    have hsq := squareSelected_int k s c r hsel
    have hdef := ((squareSelected_iff k s c r).mp hsel).2
    have hno : hexagonalSelected k s (c : K) (r : K) = false := by
      by_contra hc
      have := hexagonalSelected_int k s c r (by simpa using hc)
      unfold InHexagonal at this
      unfold InSquare at hsq
      omega
    rw [hno, foldl_not]
    obtain ⟨X, Y, hm, hx, hy⟩ := square_move k _ _ u hu ha hb
    refine ⟨X, Y, ?_, .inr ⟨square_pixel hsq hdef hm, .inl ⟨hsq, hm⟩⟩⟩
    rw [hx, hy]
    dsimp only
    push_cast
    congr 1
    ring
  · rw [h]
    rcases foldl_rules hexagonalRules hexagonalRules_distinct (hexagonalSelected k s (c : K) (r : K)) 4 ((c - s.1 : ℤ) : K)
      ((r - s.2 - 30 : ℤ) : K) (p.1 + (bump c : ℤ) / 1000, p.2) with ⟨u, hu, hsel, ha, hb, h⟩ | ⟨hn2, h⟩
    · rw [h]
      have hdef := ((hexagonalSelected_iff k s c r).mp hsel).2
      obtain ⟨X, Y, hm, hx, hy⟩ := hexagonal_move _ _ u hu ha hb
      have hhex := hexagonalSelected_int k s c r hsel
      refine ⟨X, Y, ?_, .inr ⟨hexagonal_pixel hhex hdef hm, .inr ⟨hhex, hm⟩⟩⟩
      rw [hx, hy]
      dsimp only
      push_cast
      congr 1
      ring
    · rw [h]
      exact ⟨0, 0, by simp, .inl ⟨rfl, rfl, not_pixel hn1 hn2⟩⟩

end

end BTA.Diamond
