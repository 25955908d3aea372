import Verif.Model.Bits
import Mathlib.Tactic.IntervalCases

namespace BTA

theorem spread_bit (x : BitVec 32) : ∀ i < 32,
    (spread (x.setWidth 64)).getLsbD (2*i) = x.getLsbD i ∧ (spread (x.setWidth 64)).getLsbD (2*i+1) = false := by
  intro i hi
  interval_cases i <;> simp [spread]

theorem xy2d_bit (x y : BitVec 32) (i : Nat) (hi : i < 32) :
    (xy2dMorton x y).getLsbD (2*i) = x.getLsbD i ∧ (xy2dMorton x y).getLsbD (2*i+1) = y.getLsbD i := by
  obtain ⟨h1, h2⟩ := spread_bit x i hi
  obtain ⟨h3, -⟩ := spread_bit y i hi
  unfold xy2dMorton
  simp only [BitVec.getLsbD_or, BitVec.getLsbD_shiftLeft, h1, h2]
  refine ⟨?_, ?_⟩
  · rcases Nat.eq_zero_or_pos i with rfl | h
    · simp
    · obtain ⟨-, h4⟩ := spread_bit y (i - 1) (by omega)
      rw [show 2 * (i - 1) + 1 = 2 * i - 1 by omega] at h4
      simp [h4]
  · rw [show 2 * i + 1 - 1 = 2 * i by omega, h3]
    simp
    omega

theorem morton1_bit (d : BitVec 64) : ∀ i < 32, (morton1 d).getLsbD i = d.getLsbD (2*i) := by
  intro i hi
  interval_cases i <;> simp [morton1]

theorem morton1_high (d : BitVec 64) : ∀ i < 32,
    (morton1 d).getLsbD (32 + i) = if i < 16 then d.getLsbD (2 * (16 + i)) else false := by
  intro i hi
  interval_cases i <;> simp [morton1]

end BTA

namespace BTA

/-! ### population count -/

/-- splitting off the lowest byte of a bitwise and -/
theorem and_byte (a q m M : Nat) (ha : a < 256) (hm : m < 256) :
    (a + 256 * q) &&& (m + 256 * M) = (a &&& m) + 256 * (q &&& M) := by
  apply Nat.eq_of_testBit_eq
  intro i
  have h : ∀ b r, b < 256 → (b + 256 * r).testBit i = if i < 8 then b.testBit i else r.testBit (i - 8) := by
    intro b r hb
    rw [show b + 256 * r = 2 ^ 8 * r + b by omega, Nat.testBit_two_pow_mul_add _ (by omega)]
  rw [Nat.testBit_and, h a q ha, h m M hm, h _ _ (Nat.lt_of_le_of_lt Nat.and_le_left ha)]
  split <;> simp

theorem byte_step1 : ∀ b < 256, ∀ c < 2, ((b / 2 + 128 * c) &&& 0x55) = (b / 2) &&& 0x55 := by decide +kernel

theorem byte_step2 : ∀ b < 256, ∀ c < 4, ((b / 4 + 64 * c) &&& 0x33) = (b / 4) &&& 0x33 := by decide +kernel

/-- number of ones of one byte after the first two steps -/
def bytePairs (b : Nat) : Nat := b - (b / 2 &&& 0x55)
def byteNibbles (b : Nat) : Nat := (bytePairs b &&& 0x33) + (bytePairs b / 4 &&& 0x33)

theorem bytePairs_lt : ∀ b < 256, b / 2 &&& 0x55 ≤ b := by decide +kernel

theorem byteNibbles_lt : ∀ b < 256, byteNibbles b < 256 := by decide +kernel

/-- Number of one bits among the lowest `n` bits. -/
def onesBelow (n v : Nat) : Nat := (List.range n).countP fun i => v.testBit i

theorem byte_step3 : ∀ b < 256, ∀ c < 5, byteNibbles b + byteNibbles b / 16 + 16 * c < 256 ∧
    (byteNibbles b + byteNibbles b / 16 + 16 * c) &&& 0x0F = onesBelow 8 b ∧ byteNibbles b % 16 < 5 ∧
    onesBelow 8 b ≤ 8 := by
  decide +kernel

theorem onesBelow_byte (n a q : Nat) (ha : a < 256) : onesBelow (8 + n) (a + 256 * q) = onesBelow 8 a + onesBelow n q := by
  unfold onesBelow
  have h : ∀ i, (a + 256 * q).testBit i = if i < 8 then a.testBit i else q.testBit (i - 8) := by
    intro i
    rw [show a + 256 * q = 2 ^ 8 * q + a by omega, Nat.testBit_two_pow_mul_add _ (by omega)]
  rw [List.range_add, List.countP_append, List.countP_map]
  congr 1
  · apply List.countP_congr
    intro i hi
    rw [List.mem_range] at hi
    simp [h, hi]
  · apply List.countP_congr
    intro i _
    simp [h]

theorem mul_top_byte (a b c d : Nat) (ha : a ≤ 8) (hb : b ≤ 8) (hc : c ≤ 8) (hd : d ≤ 8) :
    (a + 256 * (b + 256 * (c + 256 * d))) * 0x1010101 % 2 ^ 32 / 2 ^ 24 = a + b + c + d := by
  rw [show (a + 256 * (b + 256 * (c + 256 * d))) * 0x1010101
    = (a + 256 * (a + b) + 65536 * (a + b + c) + 16777216 * (a + b + c + d))
      + 2 ^ 32 * ((b + c + d) + 256 * (c + d) + 65536 * d) by omega, Nat.add_mul_mod_self_left,
    Nat.mod_eq_of_lt (by omega)]
  omega

theorem numberOfSetBits_bytes (b0 b1 b2 b3 : Nat) (h0 : b0 < 256) (h1 : b1 < 256) (h2 : b2 < 256) (h3 : b3 < 256) :
    numberOfSetBits (b0 + 256 * (b1 + 256 * (b2 + 256 * b3)))
      = onesBelow 8 b0 + onesBelow 8 b1 + onesBelow 8 b2 + onesBelow 8 b3 := by
  have s1 : ((b0 + 256 * (b1 + 256 * (b2 + 256 * b3))) >>> 1) &&& 0x55555555
      = (b0 / 2 &&& 0x55) + 256 * ((b1 / 2 &&& 0x55) + 256 * ((b2 / 2 &&& 0x55) + 256 * (b3 / 2 &&& 0x55))) := by
    rw [Nat.shiftRight_eq_div_pow, show (b0 + 256 * (b1 + 256 * (b2 + 256 * b3))) / 2 ^ 1
      = (b0 / 2 + 128 * (b1 % 2)) + 256 * ((b1 / 2 + 128 * (b2 % 2)) + 256 * ((b2 / 2 + 128 * (b3 % 2)) + 256 * (b3 / 2)))
      by omega, show 0x55555555 = 0x55 + 256 * (0x55 + 256 * (0x55 + 256 * 0x55)) from rfl,
      and_byte _ _ _ _ (by omega) (by omega), and_byte _ _ _ _ (by omega) (by omega),
      and_byte _ _ _ _ (by omega) (by omega), byte_step1 b0 h0 _ (by omega), byte_step1 b1 h1 _ (by omega),
      byte_step1 b2 h2 _ (by omega)]
  have s2 : (b0 + 256 * (b1 + 256 * (b2 + 256 * b3))) -
      (((b0 + 256 * (b1 + 256 * (b2 + 256 * b3))) >>> 1) &&& 0x55555555)
      = bytePairs b0 + 256 * (bytePairs b1 + 256 * (bytePairs b2 + 256 * bytePairs b3)) := by
    rw [s1]
    have := bytePairs_lt b0 h0
    have := bytePairs_lt b1 h1
    have := bytePairs_lt b2 h2
    have := bytePairs_lt b3 h3
    unfold bytePairs
    omega
  have p : ∀ b < 256, bytePairs b < 256 := fun b hb => by unfold bytePairs; omega
  have q0 := p b0 h0
  have q1 := p b1 h1
  have q2 := p b2 h2
  have q3 := p b3 h3
  have s3 : ((bytePairs b0 + 256 * (bytePairs b1 + 256 * (bytePairs b2 + 256 * bytePairs b3))) &&& 0x33333333)
      = (bytePairs b0 &&& 0x33) + 256 * ((bytePairs b1 &&& 0x33) + 256 * ((bytePairs b2 &&& 0x33) + 256 * (bytePairs b3 &&& 0x33))) := by
    rw [show 0x33333333 = 0x33 + 256 * (0x33 + 256 * (0x33 + 256 * 0x33)) from rfl,
      and_byte _ _ _ _ (by omega) (by omega), and_byte _ _ _ _ (by omega) (by omega),
      and_byte _ _ _ _ (by omega) (by omega)]
  have s4 : (((bytePairs b0 + 256 * (bytePairs b1 + 256 * (bytePairs b2 + 256 * bytePairs b3))) >>> 2) &&& 0x33333333)
      = (bytePairs b0 / 4 &&& 0x33) + 256 * ((bytePairs b1 / 4 &&& 0x33) + 256 * ((bytePairs b2 / 4 &&& 0x33) + 256 * (bytePairs b3 / 4 &&& 0x33))) := by
    generalize bytePairs b0 = b0 at *
    generalize bytePairs b1 = b1 at *
    generalize bytePairs b2 = b2 at *
    generalize bytePairs b3 = b3 at *
    rw [Nat.shiftRight_eq_div_pow, show (b0 + 256 * (b1 + 256 * (b2 + 256 * b3))) / 2 ^ 2
      = (b0 / 4 + 64 * (b1 % 4)) + 256 * ((b1 / 4 + 64 * (b2 % 4)) + 256 * ((b2 / 4 + 64 * (b3 % 4)) + 256 * (b3 / 4)))
      by omega, show 0x33333333 = 0x33 + 256 * (0x33 + 256 * (0x33 + 256 * 0x33)) from rfl,
      and_byte _ _ _ _ (by omega) (by omega), and_byte _ _ _ _ (by omega) (by omega),
      and_byte _ _ _ _ (by omega) (by omega), byte_step2 b0 q0 _ (by omega), byte_step2 b1 q1 _ (by omega),
      byte_step2 b2 q2 _ (by omega)]
  unfold numberOfSetBits
  simp only []
  rw [s2, s3, s4]
  have s5 : (bytePairs b0 &&& 0x33) + 256 * ((bytePairs b1 &&& 0x33) + 256 * ((bytePairs b2 &&& 0x33) + 256 * (bytePairs b3 &&& 0x33)))
      + ((bytePairs b0 / 4 &&& 0x33) + 256 * ((bytePairs b1 / 4 &&& 0x33) + 256 * ((bytePairs b2 / 4 &&& 0x33) + 256 * (bytePairs b3 / 4 &&& 0x33))))
      = byteNibbles b0 + 256 * (byteNibbles b1 + 256 * (byteNibbles b2 + 256 * byteNibbles b3)) := by
    unfold byteNibbles
    omega
  rw [s5]
  have l0 := byteNibbles_lt b0 h0
  have l1 := byteNibbles_lt b1 h1
  have l2 := byteNibbles_lt b2 h2
  have l3 := byteNibbles_lt b3 h3
  have m0 := (byte_step3 b0 h0 0 (by omega)).2.2
  have m1 := (byte_step3 b1 h1 0 (by omega)).2.2
  have m2 := (byte_step3 b2 h2 0 (by omega)).2.2
  have m3 := (byte_step3 b3 h3 0 (by omega)).2.2
  obtain ⟨c0, d0, -⟩ := byte_step3 b0 h0 (byteNibbles b1 % 16) m1.1
  obtain ⟨c1, d1, -⟩ := byte_step3 b1 h1 (byteNibbles b2 % 16) m2.1
  obtain ⟨c2, d2, -⟩ := byte_step3 b2 h2 (byteNibbles b3 % 16) m3.1
  obtain ⟨c3, d3, -⟩ := byte_step3 b3 h3 0 (by omega)
  rw [Nat.shiftRight_eq_div_pow (byteNibbles b0 + 256 * (byteNibbles b1 + 256 * (byteNibbles b2 + 256 * byteNibbles b3))) 4]
  rw [show byteNibbles b0 + 256 * (byteNibbles b1 + 256 * (byteNibbles b2 + 256 * byteNibbles b3)) +
      (byteNibbles b0 + 256 * (byteNibbles b1 + 256 * (byteNibbles b2 + 256 * byteNibbles b3))) / 2 ^ 4
      = (byteNibbles b0 + byteNibbles b0 / 16 + 16 * (byteNibbles b1 % 16)) + 256 * (
        (byteNibbles b1 + byteNibbles b1 / 16 + 16 * (byteNibbles b2 % 16)) + 256 * (
        (byteNibbles b2 + byteNibbles b2 / 16 + 16 * (byteNibbles b3 % 16)) + 256 * (
        (byteNibbles b3 + byteNibbles b3 / 16 + 16 * 0)))) by omega]
  rw [show 0xF0F0F0F = 0x0F + 256 * (0x0F + 256 * (0x0F + 256 * 0x0F)) from rfl,
    and_byte _ _ _ _ c0 (by omega), and_byte _ _ _ _ c1 (by omega), and_byte _ _ _ _ c2 (by omega), d0, d1, d2, d3]
  rw [show (0xffffffff : Nat) = 2 ^ 32 - 1 from rfl, Nat.and_two_pow_sub_one_eq_mod, Nat.shiftRight_eq_div_pow]
  exact mul_top_byte _ _ _ _ m0.2 m1.2 m2.2 m3.2

theorem numberOfSetBits_eq (v : Nat) (hv : v < 2 ^ 32) : numberOfSetBits v = onesBelow 32 v := by
  have hvb : v = v % 256 + 256 * (v / 256 % 256 + 256 * (v / 65536 % 256 + 256 * (v / 16777216))) := by omega
  have key : ∀ b0 b1 b2 b3, b0 < 256 → b1 < 256 → b2 < 256 → b3 < 256 →
      numberOfSetBits (b0 + 256 * (b1 + 256 * (b2 + 256 * b3))) = onesBelow 32 (b0 + 256 * (b1 + 256 * (b2 + 256 * b3))) := by
    intro b0 b1 b2 b3 h0 h1 h2 h3
    rw [numberOfSetBits_bytes b0 b1 b2 b3 h0 h1 h2 h3, onesBelow_byte 24 b0 _ h0, onesBelow_byte 16 b1 _ h1,
      onesBelow_byte 8 b2 _ h2]
    omega
  rw [hvb]
  exact key _ _ _ _ (by omega) (by omega) (by omega) (by omega)

end BTA
