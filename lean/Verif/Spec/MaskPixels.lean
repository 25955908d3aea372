import Verif.Model.MaskPixels

/-
Specification of the noisy pixel search (C46): a sequence of corrected hit counts and masks.
-/
namespace BTA.Mask.Spec
open BTA.Mask

variable {K : Type} [Field K] [LinearOrder K]

/-- `b` is a median of the entries `l`: an entry with at most half of the entries below and fewer than half above. -/
def IsMedian (l : List Int) (b : Int) : Prop :=
  b ∈ l ∧ (l.filter fun x => decide (x < b)).length ≤ l.length / 2 ∧
    l.length / 2 < (l.filter fun x => decide (x ≤ b)).length

/-- Counts of the pixels in the window of the filter around `p`, 0 for positions outside of the sensor. -/
def neighbours (s : Setup K) (m : Img) (p : Nat × Nat) : List Int :=
  (List.range s.size.1).flatMap fun (k : Nat) => (List.range s.size.2).map fun (l : Nat) =>
    if s.size.1 / 2 ≤ p.1 + k ∧ p.1 + k - s.size.1 / 2 < s.nx ∧ s.size.2 / 2 ≤ p.2 + l ∧ p.2 + l - s.size.2 / 2 < s.ny
    then m (p.1 + k - s.size.1 / 2, p.2 + l - s.size.2 / 2) else 0

/-- Pixel of the sensor. -/
def IsPixel (s : Setup K) (p : Nat × Nat) : Prop := p.1 < s.nx ∧ p.2 < s.ny

/-- The pixels of the sensor with hits. -/
def active (s : Setup K) (m : Img) : List (Nat × Nat) := s.pixels.filter fun p => decide (m p ≠ 0)

/-- Standard deviation of the counts above background `b` in units of the square root of the counts. -/
def spread (s : Setup K) (m b : Img) : K :=
  let v := (active s m).map fun p => ((m p - b p : Int) : K) / s.sqrt (m p : K)
  let mean := v.sum / v.length
  s.sqrt ((v.map fun x => (x - mean) ^ 2).sum / v.length)

/-- The pixel has hits and its count exceeds the background by more than the threshold. -/
def Exceeds (s : Setup K) (m b : Img) (p : Nat × Nat) : Prop :=
  m p ≠ 0 ∧ s.threshold * spread s m b * s.sqrt (m p : K) < ((m p - b p : Int) : K)

/-- A search: counts `m k`, background `b k` and masked pixels `M k` before iteration `k`. -/
structure Search (s : Setup K) (counts : Img) (m b : Nat → Img) (M : Nat → Set (Nat × Nat)) : Prop where
  /-- It starts with the measured counts and without masked pixel. -/
  counts_zero : m 0 = counts
  mask_zero : M 0 = ∅
  /-- The background is the median of the neighbouring counts. -/
  background : ∀ k p, IsPixel s p → IsMedian (neighbours s (m k) p) (b k p)
  /-- Every pixel above threshold is masked. -/
  mask_succ : ∀ k p, IsPixel s p → (p ∈ M (k + 1) ↔ p ∈ M k ∨ Exceeds s (m k) (b k) p)
  /-- The counts of masked pixels are replaced by the background. -/
  counts_masked : ∀ k p, IsPixel s p → p ∈ M (k + 1) → m (k + 1) p = b k p
  counts_unmasked : ∀ k p, IsPixel s p → p ∉ M (k + 1) → m (k + 1) p = m k p

end BTA.Mask.Spec
