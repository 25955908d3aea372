import Verif.Lemmas.Bits
import Mathlib.Data.List.Nodup

/-! Properties C17 – C19: Morton code, cluster shapes, population count. -/

namespace BTA.Props
open BTA

/-! ### C17 -/

/-- C17: the Morton code interleaves the bits: bit `2i` of the code is bit `i` of x, bit `2i+1` is bit `i` of y. -/
theorem C17_interleaves (x y : BitVec 32) (i : Nat) (hi : i < 32) :
    (xy2dMorton x y).getLsbD (2 * i) = x.getLsbD i ∧ (xy2dMorton x y).getLsbD (2 * i + 1) = y.getLsbD i :=
  xy2d_bit x y i hi

/-- C17: different pixels get different numbers. -/
theorem C17_injective (x y x' y' : BitVec 32) (h : xy2dMorton x y = xy2dMorton x' y') : x = x' ∧ y = y' := by
  refine ⟨BitVec.eq_of_getLsbD_eq fun i hi => ?_, BitVec.eq_of_getLsbD_eq fun i hi => ?_⟩
  · rw [← (xy2d_bit x y i hi).1, ← (xy2d_bit x' y' i hi).1, h]
  · rw [← (xy2d_bit x y i hi).2, ← (xy2d_bit x' y' i hi).2, h]

theorem d2xy_fst (d : BitVec 64) : (d2xyMorton d).1 = morton1 d := rfl
theorem d2xy_snd (d : BitVec 64) : (d2xyMorton d).2 = morton1 (d >>> 1) := rfl

theorem morton1_shift_bit (d : BitVec 64) (i : Nat) (hi : i < 32) :
    (morton1 (d >>> 1)).getLsbD i = d.getLsbD (2 * i + 1) := by
  rw [morton1_bit _ i hi, BitVec.getLsbD_ushiftRight]
  congr 1
  omega

/-- C17: number → tuple → number is the identity for all 64 bit numbers (the coordinates are converted to uint32 when
they are passed back to `xy2d_morton`). -/
theorem C17_decode_encode (d : BitVec 64) :
    xy2dMorton ((d2xyMorton d).1.setWidth 32) ((d2xyMorton d).2.setWidth 32) = d := by
  apply BitVec.eq_of_getLsbD_eq
  intro j hj
  have hb := xy2d_bit ((d2xyMorton d).1.setWidth 32) ((d2xyMorton d).2.setWidth 32) (j / 2) (by omega)
  rcases Nat.mod_two_eq_zero_or_one j with h | h
  · rw [show 2 * (j / 2) = j by omega] at hb
    rw [hb.1, BitVec.getLsbD_setWidth]
    rw [d2xy_fst, morton1_bit d _ (by omega), show 2 * (j / 2) = j by omega]
    simp
    omega
  · rw [show 2 * (j / 2) + 1 = j by omega] at hb
    rw [hb.2, BitVec.getLsbD_setWidth]
    rw [d2xy_snd, morton1_shift_bit d _ (by omega), show 2 * (j / 2) + 1 = j by omega]
    simp
    omega

/-- C17: tuple → number → tuple is the identity in the lowest 32 bits of the result for all 32 bit coordinates. -/
theorem C17_encode_decode_low (x y : BitVec 32) :
    (d2xyMorton (xy2dMorton x y)).1.setWidth 32 = x ∧ (d2xyMorton (xy2dMorton x y)).2.setWidth 32 = y := by
  refine ⟨BitVec.eq_of_getLsbD_eq fun i hi => ?_, BitVec.eq_of_getLsbD_eq fun i hi => ?_⟩
  · rw [BitVec.getLsbD_setWidth]
    rw [d2xy_fst, morton1_bit _ i hi, (xy2d_bit x y i hi).1]
    simp [hi]
  · rw [BitVec.getLsbD_setWidth]
    rw [d2xy_snd, morton1_shift_bit _ i hi, (xy2d_bit x y i hi).2]
    simp [hi]

theorem morton1_exact (d : BitVec 64) (x : BitVec 32) (hx : x.toNat < 2 ^ 16)
    (hd : ∀ i < 32, d.getLsbD (2 * i) = x.getLsbD i) : morton1 d = x.setWidth 64 := by
  apply BitVec.eq_of_getLsbD_eq
  intro j hj
  rw [BitVec.getLsbD_setWidth]
  by_cases h : j < 32
  · rw [morton1_bit d j h, hd j h]
    simp [hj]
  · have hh := morton1_high d (j - 32) (by omega)
    rw [show 32 + (j - 32) = j by omega] at hh
    rw [hh, BitVec.getLsbD_of_ge x j (by omega), Bool.and_false]
    split
    · rename_i h16
      rw [hd _ (by omega)]
      rw [BitVec.getLsbD]
      apply Nat.testBit_lt_two_pow
      exact Nat.lt_of_lt_of_le hx (Nat.pow_le_pow_right (by omega) (by omega))
    · rfl

/-- C17 (partial): tuple → number → tuple is the identity for coordinates below 2^16. For larger coordinates it is false
because the last mask of `morton_1` does not remove the upper half, see `C17_encode_decode_fails`. -/
theorem C17_encode_decode_partial (x y : BitVec 32) (hx : x.toNat < 2 ^ 16) (hy : y.toNat < 2 ^ 16) :
    d2xyMorton (xy2dMorton x y) = (x.setWidth 64, y.setWidth 64) := by
  unfold d2xyMorton
  rw [morton1_exact _ x hx fun i hi => (xy2d_bit x y i hi).1, morton1_exact _ y hy ?_]
  intro i hi
  rw [BitVec.getLsbD_ushiftRight, Nat.add_comm 1]
  exact (xy2d_bit x y i hi).2

/-- C17 is false for 32 bit coordinates: `d2xy_morton(xy2d_morton(65536, 0))[0] = 65536 + 2^32`. -/
theorem C17_encode_decode_fails : (d2xyMorton (xy2dMorton 65536#32 0#32)).1.toNat = 65536 + 2 ^ 32 := by decide

example : xy2dMorton 5#32 3#32 = 27#64 ∧ d2xyMorton 27#64 = (5#64, 3#64) := by decide

/-! ### C18 -/

/-- Morton code of a pixel of the 8x8 array. -/
theorem code_lt : ∀ x < 8, ∀ y < 8, (xy2dMorton (BitVec.ofNat 32 x) (BitVec.ofNat 32 y)).toNat < 64 := by decide +kernel

theorem decode_code : ∀ x < 8, ∀ y < 8,
    let i := (xy2dMorton (BitVec.ofNat 32 x) (BitVec.ofNat 32 y)).toNat
    (d2xyMorton (BitVec.ofNat 64 i)).1.toNat = x ∧ (d2xyMorton (BitVec.ofNat 64 i)).2.toNat = y := by decide +kernel

theorem code_decode : ∀ i < 64,
    (d2xyMorton (BitVec.ofNat 64 i)).1.toNat < 8 ∧ (d2xyMorton (BitVec.ofNat 64 i)).2.toNat < 8 ∧
    (xy2dMorton (BitVec.ofNat 32 (d2xyMorton (BitVec.ofNat 64 i)).1.toNat)
      (BitVec.ofNat 32 (d2xyMorton (BitVec.ofNat 64 i)).2.toNat)).toNat = i := by decide +kernel

/-- The loop of `calculate_cluster_array` sets exactly the pixels belonging to the one bits. -/
theorem clusterArrayLoop_spec (n s : Nat) (a : Nat → Nat → Bool) (hs : s < 2 ^ n) (x y : Nat) :
    clusterArrayLoop n s a x y =
      (a x y || decide (∃ i < n, s.testBit i = true ∧ x = (d2xyMorton (BitVec.ofNat 64 i)).1.toNat ∧
        y = (d2xyMorton (BitVec.ofNat 64 i)).2.toNat)) := by
  induction n generalizing s a with
  | zero => simp [clusterArrayLoop]
  | succ i ih =>
    unfold clusterArrayLoop
    rw [Nat.pow_succ] at hs
    by_cases h : 2 ^ i ≤ s
    · rw [if_pos h, ih _ _ (by omega)]
      have hbit : s.testBit i = true := by
        rw [show s = 2 ^ i + (s - 2 ^ i) by omega, Nat.testBit_two_pow_add_eq]
        simp [Nat.testBit_lt_two_pow (show s - 2 ^ i < 2 ^ i by omega)]
      have hlow : ∀ j < i, (s - 2 ^ i).testBit j = s.testBit j := by
        intro j hj
        conv => rhs; rw [show s = 2 ^ i + (s - 2 ^ i) by omega, Nat.testBit_two_pow_add_gt hj]
      rw [Bool.eq_iff_iff]
      simp only [Bool.or_eq_true, decide_eq_true_eq]
      constructor
      · rintro (h1 | ⟨j, hj, h1, h2⟩)
        · split at h1
          · rename_i hh; exact .inr ⟨i, by omega, hbit, hh⟩
          · exact .inl h1
        · exact .inr ⟨j, by omega, by rw [← hlow j hj]; exact h1, h2⟩
      · rintro (h1 | ⟨j, hj, h1, h2⟩)
        · left; split
          · rfl
          · exact h1
        · by_cases hji : j = i
          · subst hji; left; rw [if_pos h2]
          · right; exact ⟨j, by omega, by rw [hlow j (by omega)]; exact h1, h2⟩
    · rw [if_neg h, ih _ _ (by omega)]
      have hbit : s.testBit i = false := Nat.testBit_lt_two_pow (by omega)
      rw [Bool.eq_iff_iff]
      simp only [Bool.or_eq_true, decide_eq_true_eq]
      constructor
      · rintro (h1 | ⟨j, hj, h1, h2⟩)
        · exact .inl h1
        · exact .inr ⟨j, by omega, h1, h2⟩
      · rintro (h1 | ⟨j, hj, h1, h2⟩)
        · exact .inl h1
        · right
          refine ⟨j, ?_, h1, h2⟩
          rcases Nat.lt_or_ge j i with h3 | h3
          · exact h3
          · have : j = i := by omega
            subst this
            rw [hbit] at h1
            simp at h1

/-- bits of a sum of different powers of two -/
theorem foldl_pow_bits (l : List γ) (c : γ → Nat) (s : Nat) (hc : ∀ p ∈ l, c p < 64) (hnd : (l.map c).Nodup)
    (hs : s < 2 ^ 64) (hdis : ∀ p ∈ l, s.testBit (c p) = false) :
    l.foldl (fun s p => (s + 2 ^ c p) % 2 ^ 64) s < 2 ^ 64 ∧ ∀ i,
    (l.foldl (fun s p => (s + 2 ^ c p) % 2 ^ 64) s).testBit i = (s.testBit i || decide (i ∈ l.map c)) := by
  induction l generalizing s with
  | nil => exact ⟨hs, by simp⟩
  | cons p r ih =>
    rw [List.foldl_cons]
    have hcp := hc p (by simp)
    have hdp := hdis p (by simp)
    have hpow : 2 ^ c p < 2 ^ 64 := Nat.pow_lt_pow_right (by omega) hcp
    have hor : (s + 2 ^ c p) % 2 ^ 64 = s ||| 2 ^ c p := by
      have h0 : BitVec.ofNat 64 s &&& BitVec.ofNat 64 (2 ^ c p) = 0#64 := by
        apply BitVec.eq_of_toNat_eq
        rw [BitVec.toNat_and, BitVec.toNat_ofNat, BitVec.toNat_ofNat, Nat.mod_eq_of_lt hs, Nat.mod_eq_of_lt hpow]
        apply Nat.eq_of_testBit_eq
        intro i
        rw [Nat.testBit_and, Nat.testBit_two_pow]
        by_cases h : c p = i
        · subst h; simp [hdp]
        · simp [h]
      have h1 := congrArg BitVec.toNat (BitVec.add_eq_or_of_and_eq_zero _ _ h0)
      rw [BitVec.toNat_add, BitVec.toNat_or, BitVec.toNat_ofNat, BitVec.toNat_ofNat, Nat.mod_eq_of_lt hs,
        Nat.mod_eq_of_lt hpow] at h1
      exact h1
    have hlt : s ||| 2 ^ c p < 2 ^ 64 := Nat.or_lt_two_pow hs hpow
    rw [hor]
    rw [List.map_cons, List.nodup_cons] at hnd
    have hbits : ∀ i, (s ||| 2 ^ c p).testBit i = (s.testBit i || decide (c p = i)) := by
      intro i
      rw [Nat.testBit_or, Nat.testBit_two_pow]
    obtain ⟨h1, h2⟩ := ih (s ||| 2 ^ c p) (fun q hq => hc q (List.mem_cons_of_mem _ hq)) hnd.2 hlt (by
      intro q hq
      rw [hbits, hdis q (List.mem_cons_of_mem _ hq)]
      simp
      intro he
      exact hnd.1 (by rw [he]; exact List.mem_map_of_mem hq))
    refine ⟨h1, fun i => ?_⟩
    rw [h2, hbits]
    rw [List.map_cons, Bool.or_assoc]
    congr 1
    rw [Bool.eq_iff_iff]
    simp only [Bool.or_eq_true, decide_eq_true_eq, List.mem_cons]
    constructor
    · rintro (h | h)
      · exact .inl h.symm
      · exact .inr h
    · rintro (h | h)
      · exact .inl h.symm
      · exact .inr h

theorem mem_nonzero (n m : Nat) (a : Nat → Nat → Bool) (x y : Nat) :
    (x, y) ∈ nonzero n m a ↔ x < n ∧ y < m ∧ a x y = true := by
  simp [nonzero]

theorem nonzero_nodup (n m : Nat) (a : Nat → Nat → Bool) : (nonzero n m a).Nodup := by
  unfold nonzero
  rw [List.nodup_flatMap]
  refine ⟨?_, ?_⟩
  · intro x _
    apply List.Nodup.map
    · intro y y' h; exact (Prod.mk.inj h).2
    · exact List.Nodup.filter _ List.nodup_range
  · refine List.Pairwise.imp ?_ (List.nodup_range (n := n))
    intro x x' hne p h1 h2
    obtain ⟨y1, -, rfl⟩ := List.mem_map.mp h1
    obtain ⟨y2, -, he⟩ := List.mem_map.mp h2
    exact hne (Prod.mk.inj he).1.symm

/-- Specification of the shape number: bit `code(x, y)` is set iff the pixel (x, y) is set. -/
theorem clusterShape_bits (a : Nat → Nat → Bool) :
    clusterShape a < 2 ^ 64 ∧ ∀ x < 8, ∀ y < 8,
      (clusterShape a).testBit (xy2dMorton (BitVec.ofNat 32 x) (BitVec.ofNat 32 y)).toNat = a x y := by
  have hinj : ∀ p ∈ nonzero 8 8 a, ∀ q : Nat × Nat, q.1 < 8 → q.2 < 8 →
      (xy2dMorton (BitVec.ofNat 32 p.1) (BitVec.ofNat 32 p.2)).toNat
        = (xy2dMorton (BitVec.ofNat 32 q.1) (BitVec.ofNat 32 q.2)).toNat → p = q := by
    rintro ⟨x, y⟩ hp ⟨x', y'⟩ hx' hy' he
    obtain ⟨hx, hy, -⟩ := (mem_nonzero 8 8 a x y).mp hp
    have h1 := decode_code x hx y hy
    have h2 := decode_code x' hx' y' hy'
    simp only [] at he h1 h2
    rw [he] at h1
    rw [← h1.1, ← h1.2, h2.1, h2.2]
  have hlt : ∀ p ∈ nonzero 8 8 a, (xy2dMorton (BitVec.ofNat 32 p.1) (BitVec.ofNat 32 p.2)).toNat < 64 := by
    rintro ⟨x, y⟩ hp
    obtain ⟨hx, hy, -⟩ := (mem_nonzero 8 8 a x y).mp hp
    exact code_lt x hx y hy
  obtain ⟨h1, h2⟩ := foldl_pow_bits (nonzero 8 8 a)
    (fun p => (xy2dMorton (BitVec.ofNat 32 p.1) (BitVec.ofNat 32 p.2)).toNat) 0 hlt (by
      apply List.Nodup.map_on _ (nonzero_nodup 8 8 a)
      rintro p hp ⟨x, y⟩ hq he
      obtain ⟨hx, hy, -⟩ := (mem_nonzero 8 8 a x y).mp hq
      exact hinj p hp _ hx hy he) (by omega) (by simp)
  refine ⟨h1, fun x hx y hy => ?_⟩
  unfold clusterShape
  rw [h2, Nat.zero_testBit, Bool.false_or]
  cases hxy : a x y
  · simp only [decide_eq_false_iff_not]
    intro hm
    obtain ⟨p, hp, he⟩ := List.mem_map.mp hm
    have := hinj p hp (x, y) hx hy he
    subst this
    have := ((mem_nonzero 8 8 a x y).mp hp).2.2
    rw [hxy] at this
    simp at this
  · simp only [decide_eq_true_eq]
    exact List.mem_map.mpr ⟨(x, y), (mem_nonzero 8 8 a x y).mpr ⟨hx, hy, hxy⟩, rfl⟩

/-- C18: array → number → array is the identity on every boolean 8x8 array. -/
theorem C18_array_roundtrip (a : Nat → Nat → Bool) (x y : Nat) (hx : x < 8) (hy : y < 8) :
    clusterArray (clusterShape a) x y = a x y := by
  obtain ⟨h1, h2⟩ := clusterShape_bits a
  unfold clusterArray
  rw [clusterArrayLoop_spec 64 _ _ h1, Bool.false_or, ← h2 x hx y hy, Bool.eq_iff_iff, decide_eq_true_eq]
  constructor
  · rintro ⟨i, hi, hb, rfl, rfl⟩
    rw [(code_decode i hi).2.2]
    exact hb
  · intro hb
    have hd := decode_code x hx y hy
    exact ⟨_, code_lt x hx y hy, hb, hd.1.symm, hd.2.symm⟩

/-- C18: number → array → number is the identity on every 64 bit number. -/
theorem C18_number_roundtrip (s : Nat) (hs : s < 2 ^ 64) : clusterShape (clusterArray s) = s := by
  obtain ⟨h1, h2⟩ := clusterShape_bits (clusterArray s)
  apply Nat.eq_of_testBit_eq
  intro i
  by_cases hi : i < 64
  · obtain ⟨hx, hy, hc⟩ := code_decode i hi
    have h3 := h2 _ hx _ hy
    rw [hc] at h3
    rw [h3]
    unfold clusterArray
    rw [clusterArrayLoop_spec 64 _ _ hs, Bool.false_or, Bool.eq_iff_iff, decide_eq_true_eq]
    constructor
    · rintro ⟨j, hj, hb, e1, e2⟩
      have hcj := (code_decode j hj).2.2
      rw [← e1, ← e2, hc] at hcj
      rw [hcj]; exact hb
    · intro hb
      exact ⟨i, hi, hb, rfl, rfl⟩
  · have hp : 2 ^ 64 ≤ 2 ^ i := Nat.pow_le_pow_right (by omega) (by omega)
    rw [Nat.testBit_lt_two_pow (Nat.lt_of_lt_of_le h1 hp), Nat.testBit_lt_two_pow (Nat.lt_of_lt_of_le hs hp)]

/-- C18, consequence: two 8x8 clusters have the same shape number only if they are the same. -/
theorem C18_shape_identifies (a b : Nat → Nat → Bool) (h : clusterShape a = clusterShape b) (x y : Nat) (hx : x < 8)
    (hy : y < 8) : a x y = b x y := by
  rw [← C18_array_roundtrip a x y hx hy, h, C18_array_roundtrip b x y hx hy]

example : clusterShape (fun x y => decide ((x = 0 ∧ y = 0) ∨ (x = 1 ∧ y = 1))) = 9 := by decide +kernel

/-! ### C19 -/

/-- C19: `number_of_set_bits` counts the one bits of every unsigned 32 bit number. -/
theorem C19_popcount (v : Nat) (hv : v < 2 ^ 32) :
    numberOfSetBits v = ((List.range 32).filter fun i => v.testBit i).length := by
  rw [numberOfSetBits_eq v hv, onesBelow, List.countP_eq_length_filter]

/-- C19: the intermediate values stay below 2^32 and the subtraction does not underflow, so the result is the same for
Python integers and for uint32 arrays (where the product is taken modulo 2^32). -/
theorem C19_no_overflow (v : Nat) (hv : v < 2 ^ 32) :
    (v >>> 1) &&& 0x55555555 ≤ v ∧
    (let w := v - ((v >>> 1) &&& 0x55555555)
     (w &&& 0x33333333) + ((w >>> 2) &&& 0x33333333) < 2 ^ 31) := by
  refine ⟨?_, ?_⟩
  · exact Nat.le_trans Nat.and_le_left (by rw [Nat.shiftRight_eq_div_pow]; omega)
  · intro w
    have h1 : w &&& 0x33333333 ≤ 0x33333333 := Nat.and_le_right
    have h2 : (w >>> 2) &&& 0x33333333 ≤ 0x33333333 := Nat.and_le_right
    omega

/-- The claim does not extend to 64 bit numbers (more than 32 DUTs). -/
theorem C19_only_32_bit : numberOfSetBits (2 ^ 32) ≠ ((List.range 64).filter fun i => (2 ^ 32).testBit i).length := by
  decide +kernel

example : numberOfSetBits 0xF00000FF = 12 := by decide

end BTA.Props
