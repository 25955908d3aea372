import Verif.Model.Hist
import Mathlib.Tactic.Linarith
import Mathlib.Tactic.Ring

/-! Property C15: index histograms. -/

namespace BTA.Props
open BTA

/-- values of a signed 32 bit array -/
def Int32Range (x : Int) : Prop := -(2 ^ 31) ≤ x ∧ x < 2 ^ 31

theorem toUInt32_inside (x : Int) (n : Nat) (hx : Int32Range x) (hn : n ≤ 2 ^ 31) :
    (toUInt32 x < n ↔ 0 ≤ x ∧ x < n) ∧ (0 ≤ x → toUInt32 x = x.toNat) := by
  unfold toUInt32 Int32Range at *
  refine ⟨⟨fun h => ?_, fun h => ?_⟩, fun h => ?_⟩ <;> omega

/-- Outcome of the counting loop in terms of the bins `flat`. -/
theorem histLoop_spec (inside : ι → Bool) (flat : ι → Nat) (cap : Nat) (l : List ι) (h : Nat → Nat)
    (hcap : ∀ k, h k ≤ cap) :
    match histLoop inside flat cap l h with
    | .ok h' => (∀ p ∈ l, inside p = true) ∧ ∀ k, h' k = h k + l.countP (fun p => flat p = k) ∧ h' k ≤ cap
    | .error .indexOutOfRange => ∃ p ∈ l, inside p = false
    | .error .binFull => ∃ pre p post, l = pre ++ p :: post ∧ (∀ q ∈ pre ++ [p], inside q = true) ∧
        cap < h (flat p) + (pre ++ [p]).countP (fun q => flat q = flat p) := by
  induction l generalizing h with
  | nil => simpa [histLoop] using hcap
  | cons p r ih =>
    unfold histLoop
    cases hin : inside p
    · simp only [Bool.not_false, if_true]
      exact ⟨p, by simp, hin⟩
    · simp only [Bool.not_true, Bool.false_eq_true, if_false]
      by_cases hfull : h (flat p) < cap
      · rw [if_pos hfull]
        have ih := ih (fun k => if k = flat p then h k + 1 else h k) (by
          intro k; beta_reduce; split
          · rename_i hk; subst hk; omega
          · exact hcap k)
        revert ih
        cases histLoop inside flat cap r (fun k => if k = flat p then h k + 1 else h k) with
        | ok h' =>
          simp only []
          rintro ⟨h1, h2⟩
          refine ⟨by simpa [hin] using h1, fun k => ?_⟩
          obtain ⟨h3, h4⟩ := h2 k
          refine ⟨?_, h4⟩
          rw [h3, List.countP_cons]
          by_cases hk : k = flat p
          · subst hk; simp; omega
          · have : ¬ flat p = k := fun h => hk h.symm
            simp [hk, this]
        | error e =>
          cases e with
          | indexOutOfRange =>
            rintro ⟨q, hq, h1⟩
            exact ⟨q, List.mem_cons_of_mem _ hq, h1⟩
          | binFull =>
            rintro ⟨pre, q, post, hr, h1, h2⟩
            refine ⟨p :: pre, q, post, by rw [hr]; rfl, ?_, ?_⟩
            · intro q' hq'
              rw [List.cons_append, List.mem_cons] at hq'
              rcases hq' with rfl | hq'
              · exact hin
              · exact h1 q' hq'
            · rw [List.cons_append, List.countP_cons]
              simp only [decide_eq_true_eq]
              by_cases hk : flat q = flat p
              · rw [if_pos hk] at h2
                rw [if_pos hk.symm]
                omega
              · rw [if_neg hk] at h2
                omega
      · rw [if_neg hfull]
        refine ⟨[], p, r, rfl, by simpa using hin, ?_⟩
        have := hcap (flat p)
        simp
        omega

/-- The loop on converted input: `valid` entries are those inside, different valid entries have different bins. -/
theorem hist_generic [BEq ι] [LawfulBEq ι] (conv : ι → κ) (inside : κ → Bool) (flat : κ → Nat) (cap : Nat) (x : List ι)
    (valid : ι → Prop) (hval : ∀ p ∈ x, inside (conv p) = true ↔ valid p)
    (same : ∀ p q, valid p → valid q → flat (conv p) = flat (conv q) → p = q) :
    match histLoop inside flat cap (x.map conv) (fun _ => 0) with
    | .ok h => (∀ p ∈ x, valid p) ∧ ∀ p, valid p → h (flat (conv p)) = x.count p ∧ x.count p ≤ cap
    | .error .indexOutOfRange => ∃ p ∈ x, ¬ valid p
    | .error .binFull => ∃ p, valid p ∧ cap < x.count p := by
  have h := histLoop_spec inside flat cap (x.map conv) (fun _ => 0) (by simp)
  have cnt : ∀ l : List ι, (∀ p ∈ l, valid p) → ∀ q, valid q →
      (l.map conv).countP (fun p => decide (flat p = flat (conv q))) = l.count q := by
    intro l hl q hq
    rw [List.countP_map, List.count]
    apply List.countP_congr
    intro p hp
    simp only [Function.comp_apply, decide_eq_true_eq, beq_iff_eq]
    constructor
    · exact same p q (hl p hp) hq
    · rintro rfl; rfl
  revert h
  cases histLoop inside flat cap (x.map conv) (fun _ => 0) with
  | ok h' =>
    rintro ⟨h1, h2⟩
    have hin : ∀ p ∈ x, valid p := fun p hp => (hval p hp).mp (h1 _ (List.mem_map_of_mem hp))
    refine ⟨hin, fun p hp => ?_⟩
    obtain ⟨h3, h4⟩ := h2 (flat (conv p))
    rw [cnt x hin p hp] at h3
    exact ⟨by omega, by omega⟩
  | error e =>
    cases e with
    | indexOutOfRange =>
      rintro ⟨q, hq, h1⟩
      obtain ⟨p, hp, rfl⟩ := List.mem_map.mp hq
      refine ⟨p, hp, ?_⟩
      rw [← hval p hp, h1]
      simp
    | binFull =>
      rintro ⟨pre, q, post, hr, h1, h2⟩
      obtain ⟨l1, l2, hl, e1, e2⟩ := List.map_eq_append_iff.mp hr
      obtain ⟨p, l3, hl2, e3, e4⟩ := List.map_eq_cons_iff.mp e2
      have hsub : ∀ r ∈ l1 ++ [p], r ∈ x := by
        intro r hr'
        rw [hl, hl2]
        simp at hr' ⊢
        rcases hr' with h | h
        · exact .inl h
        · exact .inr (.inl h)
      have hpre : pre ++ [q] = (l1 ++ [p]).map conv := by rw [List.map_append, e1]; simp [e3]
      rw [hpre] at h1 h2
      have hin : ∀ r ∈ l1 ++ [p], valid r := by
        intro r hr'
        exact (hval r (hsub r hr')).mp (h1 _ (List.mem_map_of_mem hr'))
      rw [← e3, cnt (l1 ++ [p]) hin p (hin p (by simp))] at h2
      refine ⟨p, hin p (by simp), ?_⟩
      have hle : (l1 ++ [p]).count p ≤ x.count p := by
        rw [hl, hl2, List.count_append, List.count_append, List.count_cons, List.count_cons, List.count_nil]
        omega
      omega

theorem toUInt32_natCast (i : Nat) (hi : i < 2 ^ 32) : toUInt32 (i : Int) = i := by
  unfold toUInt32; omega

/-- C15 (1D): for 32 bit signed input and at most 2^31 bins. Success means that all indices are inside and every bin
holds the number of entries with this index; the exceptions mean that an index is outside or that a bin would have more
than 2^32 - 1 entries. -/
theorem C15_hist_1d (x : List Int) (nx : Nat) (hn : nx ≤ 2 ^ 31) (hx : ∀ p ∈ x, Int32Range p) :
    match hist1d x nx with
    | .ok h => (∀ p ∈ x, 0 ≤ p ∧ p < nx) ∧ ∀ i : Nat, i < nx → h i = x.count (i : Int) ∧ x.count (i : Int) ≤ 2 ^ 32 - 1
    | .error .indexOutOfRange => ∃ p ∈ x, ¬ (0 ≤ p ∧ p < nx)
    | .error .binFull => ∃ p : Int, (0 ≤ p ∧ p < nx) ∧ 2 ^ 32 - 1 < x.count p := by
  have h := hist_generic toUInt32 (fun p => decide (p < nx)) (fun p => p) 4294967295 x (fun p => 0 ≤ p ∧ p < nx)
    (fun p hp => by simpa using (toUInt32_inside p nx (hx p hp) hn).1)
    (fun p q hp hq he => by simp only [toUInt32] at he; omega)
  unfold hist1d
  revert h
  cases histLoop (fun p => decide (p < nx)) (fun p => p) 4294967295 (x.map toUInt32) (fun _ => 0) with
  | ok h' =>
    rintro ⟨h1, h2⟩
    refine ⟨h1, fun i hi => ?_⟩
    obtain ⟨h3, h4⟩ := h2 (i : Int) ⟨by omega, by omega⟩
    rw [toUInt32_natCast i (by omega)] at h3
    exact ⟨h3, h4⟩
  | error e => cases e <;> exact fun h => h

/-- inside the shape (nx, ny) -/
def Inside2 (nx ny : Nat) (p : Int × Int) : Prop := (0 ≤ p.1 ∧ p.1 < nx) ∧ (0 ≤ p.2 ∧ p.2 < ny)

/-- inside the shape (nx, ny, nz) -/
def Inside3 (nx ny nz : Nat) (p : Int × Int × Int) : Prop :=
  (0 ≤ p.1 ∧ p.1 < nx) ∧ (0 ≤ p.2.1 ∧ p.2.1 < ny) ∧ (0 ≤ p.2.2 ∧ p.2.2 < nz)

/-- two-digit numbers with last digit below `m` are determined by their value -/
theorem digits_inj {a b c d m : Nat} (hb : b < m) (hd : d < m) (h : a * m + b = c * m + d) : a = c ∧ b = d := by
  have h1 : (a * m + b) / m = (c * m + d) / m := by rw [h]
  rw [Nat.add_comm, Nat.add_comm (c * m), Nat.add_mul_div_right _ _ (by omega), Nat.add_mul_div_right _ _ (by omega),
    Nat.div_eq_of_lt hb, Nat.div_eq_of_lt hd] at h1
  have : a = c := by omega
  subst this
  exact ⟨rfl, by omega⟩

theorem flat_lt {a b n m : Nat} (ha : a < n) (hb : b < m) : a * m + b < n * m := by
  have : (a + 1) * m ≤ n * m := Nat.mul_le_mul_right m ha
  rw [Nat.add_mul] at this
  omega

/-- C15 (2D): as in 1D, for a histogram with at most 2^32 bins. -/
theorem C15_hist_2d (xy : List (Int × Int)) (nx ny : Nat) (hnx : nx ≤ 2 ^ 31) (hny : ny ≤ 2 ^ 31)
    (hn : nx * ny ≤ 2 ^ 32) (hxy : ∀ p ∈ xy, Int32Range p.1 ∧ Int32Range p.2) :
    match hist2d xy nx ny with
    | .ok h => (∀ p ∈ xy, Inside2 nx ny p) ∧
        ∀ i j : Nat, i < nx → j < ny → h i j = xy.count ((i : Int), (j : Int)) ∧ xy.count ((i : Int), (j : Int)) ≤ 2 ^ 32 - 1
    | .error .indexOutOfRange => ∃ p ∈ xy, ¬ Inside2 nx ny p
    | .error .binFull => ∃ p, Inside2 nx ny p ∧ 2 ^ 32 - 1 < xy.count p := by
  have flatv : ∀ p, Inside2 nx ny p → flat2 ny (toUInt32 p.1, toUInt32 p.2) = p.1.toNat * ny + p.2.toNat := by
    rintro ⟨a, b⟩ ⟨h1, h2⟩
    simp only at h1 h2
    have e1 : toUInt32 a = a.toNat := by unfold toUInt32; omega
    have e2 : toUInt32 b = b.toNat := by unfold toUInt32; omega
    simp only [flat2, e1, e2]
    apply Nat.mod_eq_of_lt
    exact Nat.lt_of_lt_of_le (flat_lt (by omega) (by omega)) hn
  have h := hist_generic (fun p : Int × Int => (toUInt32 p.1, toUInt32 p.2))
    (fun p => decide (p.1 < nx) && decide (p.2 < ny)) (flat2 ny) 4294967295 xy (Inside2 nx ny)
    (fun p hp => by
      have a1 := (toUInt32_inside p.1 nx (hxy p hp).1 hnx).1
      have a2 := (toUInt32_inside p.2 ny (hxy p hp).2 hny).1
      simp only [Bool.and_eq_true, decide_eq_true_eq, Inside2, a1, a2])
    (fun p q hp hq he => by
      rw [flatv p hp, flatv q hq] at he
      obtain ⟨⟨a1, a2⟩, a3, a4⟩ := hp
      obtain ⟨⟨b1, b2⟩, b3, b4⟩ := hq
      obtain ⟨e1, e2⟩ := digits_inj (by omega) (by omega) he
      apply Prod.ext <;> omega)
  unfold hist2d
  revert h
  cases histLoop (fun p => decide (p.1 < nx) && decide (p.2 < ny)) (flat2 ny) 4294967295
      (xy.map fun p => (toUInt32 p.1, toUInt32 p.2)) (fun _ => 0) with
  | ok h' =>
    rintro ⟨h1, h2⟩
    refine ⟨h1, fun i j hi hj => ?_⟩
    have hins : Inside2 nx ny ((i : Int), (j : Int)) := ⟨⟨by simp, by simpa using hi⟩, by simp, by simpa using hj⟩
    obtain ⟨h3, h4⟩ := h2 _ hins
    rw [flatv _ hins] at h3
    exact ⟨h3, h4⟩
  | error e => cases e <;> exact fun h => h

/-- C15 (3D): at most 2^16 - 1 entries per bin. -/
theorem C15_hist_3d (xyz : List (Int × Int × Int)) (nx ny nz : Nat) (hnx : nx ≤ 2 ^ 31) (hny : ny ≤ 2 ^ 31)
    (hnz : nz ≤ 2 ^ 31) (hn : nx * ny * nz ≤ 2 ^ 32)
    (hxyz : ∀ p ∈ xyz, Int32Range p.1 ∧ Int32Range p.2.1 ∧ Int32Range p.2.2) :
    match hist3d xyz nx ny nz with
    | .ok h => (∀ p ∈ xyz, Inside3 nx ny nz p) ∧ ∀ i j k : Nat, i < nx → j < ny → k < nz →
        h i j k = xyz.count ((i : Int), (j : Int), (k : Int)) ∧ xyz.count ((i : Int), (j : Int), (k : Int)) ≤ 2 ^ 16 - 1
    | .error .indexOutOfRange => ∃ p ∈ xyz, ¬ Inside3 nx ny nz p
    | .error .binFull => ∃ p, Inside3 nx ny nz p ∧ 2 ^ 16 - 1 < xyz.count p := by
  have assoc : ∀ a b c : Nat, a * ny * nz + b * nz + c = (a * ny + b) * nz + c := by intros; ring
  have flatv : ∀ p, Inside3 nx ny nz p → flat3 ny nz (toUInt32 p.1, toUInt32 p.2.1, toUInt32 p.2.2)
      = (p.1.toNat * ny + p.2.1.toNat) * nz + p.2.2.toNat := by
    rintro ⟨a, b, c⟩ ⟨h1, h2, h3⟩
    simp only at h1 h2 h3
    have e1 : toUInt32 a = a.toNat := by unfold toUInt32; omega
    have e2 : toUInt32 b = b.toNat := by unfold toUInt32; omega
    have e3 : toUInt32 c = c.toNat := by unfold toUInt32; omega
    simp only [flat3, e1, e2, e3]
    rw [assoc]
    apply Nat.mod_eq_of_lt
    exact Nat.lt_of_lt_of_le (flat_lt (flat_lt (by omega) (by omega)) (by omega)) hn
  have h := hist_generic (fun p : Int × Int × Int => (toUInt32 p.1, toUInt32 p.2.1, toUInt32 p.2.2))
    (fun p => decide (p.1 < nx) && decide (p.2.1 < ny) && decide (p.2.2 < nz)) (flat3 ny nz) 65535 xyz (Inside3 nx ny nz)
    (fun p hp => by
      have a1 := (toUInt32_inside p.1 nx (hxyz p hp).1 hnx).1
      have a2 := (toUInt32_inside p.2.1 ny (hxyz p hp).2.1 hny).1
      have a3 := (toUInt32_inside p.2.2 nz (hxyz p hp).2.2 hnz).1
      simp only [Bool.and_eq_true, decide_eq_true_eq, Inside3, a1, a2, a3]
      tauto)
    (fun p q hp hq he => by
      rw [flatv p hp, flatv q hq] at he
      obtain ⟨⟨a1, a2⟩, ⟨a3, a4⟩, a5, a6⟩ := hp
      obtain ⟨⟨b1, b2⟩, ⟨b3, b4⟩, b5, b6⟩ := hq
      obtain ⟨e1, e2⟩ := digits_inj (by omega) (by omega) he
      obtain ⟨e3, e4⟩ := digits_inj (by omega) (by omega) e1
      apply Prod.ext
      · omega
      · apply Prod.ext <;> omega)
  unfold hist3d
  revert h
  cases histLoop (fun p => decide (p.1 < nx) && decide (p.2.1 < ny) && decide (p.2.2 < nz)) (flat3 ny nz) 65535
      (xyz.map fun p => (toUInt32 p.1, toUInt32 p.2.1, toUInt32 p.2.2)) (fun _ => 0) with
  | ok h' =>
    rintro ⟨h1, h2⟩
    refine ⟨h1, fun i j k hi hj hk => ?_⟩
    have hins : Inside3 nx ny nz ((i : Int), (j : Int), (k : Int)) :=
      ⟨⟨by simp, by simpa using hi⟩, ⟨by simp, by simpa using hj⟩, by simp, by simpa using hk⟩
    obtain ⟨h3, h4⟩ := h2 _ hins
    rw [flatv _ hins] at h3
    refine ⟨?_, h4⟩
    show h' (i * ny * nz + j * nz + k) = _
    rw [assoc]
    exact h3
  | error e => cases e <;> exact fun h => h

/-- The restriction to 32 bit input is necessary: the index 2^32 of a 64 bit array is outside of the histogram but is
counted in bin 0. -/
theorem C15_wide_index_wrong_bin : (hist1d [2 ^ 32] 4).map (fun h => h 0) = .ok 1 := by decide

/-- The restriction to 2^32 bins is necessary: with the shape (65536, 65537) the indices (65535, 1) and (0, 0) have the
same flat index. -/
theorem C15_huge_shape_collides : flat2 65537 (65535, 1) = flat2 65537 (0, 0) := by decide

example : (hist2d [(0, 1), (2, 0), (0, 1)] 3 2).map (fun h => [h 0 0, h 0 1, h 1 0, h 1 1, h 2 0, h 2 1])
    = .ok [0, 2, 0, 0, 1, 0] := by decide
example : (hist2d [(0, 1), (2, -1)] 3 2).map (fun h => h 0 0) = .error .indexOutOfRange := by decide
example : ∀ p ∈ [((0 : Int), (1 : Int)), (2, -1)], Int32Range p.1 ∧ Int32Range p.2 := by
  simp [Int32Range]

end BTA.Props
