import Verif.Model.Hist
import Mathlib.Algebra.Order.Field.Basic
import Mathlib.Data.List.Sort

/-
Model of the noisy pixel search `mask_pixels`, beam_telescope_analysis/hit_analysis.py L521-645.

Simplifications: floating point numbers are elements of an ordered field `K`, the square root is an arbitrary function
`sqrt` (np.sqrt, also used by np.std). The occupancy is the histogram of the complete hit table (the summation over the
chunks is the subject of Model/Smc.lean). The file access and the plots are not modelled.
-/
namespace BTA.Mask

/-- Arguments of `mask_pixels` (L521) and the number of pixels of the DUT. -/
structure Setup (K : Type) where
  /-- `dut.n_pixel` -/
  nx : Nat
  ny : Nat
  /-- `filter_size` as tuple; a scalar is used for both axes -/
  size : Nat × Nat
  threshold : K
  /-- `iterations`, 0 stands for None as well (L608) -/
  iterations : Nat
  sqrt : K → K

/-- Array of integers with the shape of the DUT. -/
abbrev Img := Nat × Nat → Int

/-- Boolean array with the shape of the DUT. -/
abbrev Bits := Nat × Nat → Bool

/-- All pixels of the DUT in C order. -/
def Setup.pixels (s : Setup K) : List (Nat × Nat) := (List.range s.nx).flatMap fun i => (List.range s.ny).map fun j => (i, j)

/-- `astype(np.int32)` (L595) of an unsigned 32 bit integer. -/
def toInt32 (v : Int) : Int := if v < 2 ^ 31 then v else v - 2 ^ 32

/-- Entry of the array, 0 outside of it (`mode='constant', cval=0.0`, L595). -/
def Setup.entry (s : Setup K) (a : Img) (x y : Int) : Int :=
  if 0 ≤ x ∧ x < s.nx ∧ 0 ≤ y ∧ y < s.ny then a (x.toNat, y.toNat) else 0

/-- Offsets covered by a filter of size `n`: from `-(n // 2)`, `n` of them. -/
def offsets (n : Nat) : List Int := (List.range n).map fun (k : Nat) => (k : Int) - ((n / 2 : Nat) : Int)

/-- The entries below the filter at (i, j). -/
def Setup.window (s : Setup K) (a : Img) (p : Nat × Nat) : List Int :=
  (offsets s.size.1).flatMap fun dx => (offsets s.size.2).map fun dy => s.entry a (p.1 + dx) (p.2 + dy)

/-- The entry of rank `len // 2`, as selected by scipy's median filter. -/
def median (l : List Int) : Int := (l.insertionSort (· ≤ ·))[l.length / 2]?.getD 0

/-- `median_filter(occupancy.astype(np.int32), size=filter_size, mode='constant', cval=0.0)` (L595). -/
def Setup.blur (s : Setup K) (a : Img) : Img := fun p => median (s.window (fun q => toInt32 (a q)) p)

/-- Pixels with hits, `occupancy != 0`. -/
def Setup.hit (s : Setup K) (a : Img) : List (Nat × Nat) := s.pixels.filter fun p => decide (a p ≠ 0)

variable {K : Type} [Field K]

/-- `np.std` -/
def npStd (sqrt : K → K) (l : List K) : K :=
  let mean := l.sum / l.length
  sqrt ((l.map fun x => (x - mean) ^ 2).sum / l.length)

/-- `std` (L600): spread of the background subtracted and normalized counts of the pixels with hits. -/
def Setup.std (s : Setup K) (a : Img) : K :=
  npStd s.sqrt ((s.hit a).map fun p => ((a p - s.blur a p : Int) : K) / s.sqrt (a p : K))

variable [LinearOrder K]

/-- `tmp_pixel_mask` (L597-604). -/
def Setup.noisy (s : Setup K) (a : Img) : Bits := fun p =>
  decide (a p ≠ 0) && decide (s.threshold * s.std a * s.sqrt (a p : K) < ((a p - s.blur a p : Int) : K))

/-- Local variables of the loop: `occupancy` and `pixel_mask`. -/
structure State where
  occupancy : Img
  mask : Bits

/-- One iteration (L593-608): the new state and `n_new_masked_pixels`. The background is stored as uint32. -/
def Setup.step (s : Setup K) (st : State) : State × Nat :=
  let tmp := s.noisy st.occupancy
  let n := (s.pixels.filter fun p => tmp p && (tmp p ^^ st.mask p)).length
  let mask : Bits := fun p => st.mask p || tmp p
  let occupancy : Img := fun p => if mask p then (toUInt32 (s.blur st.occupancy p) : Int) else st.occupancy p
  (⟨occupancy, mask⟩, n)

/-- The while loop (L592-610) with `i` completed iterations, for at most `fuel` further iterations: mask and number of iterations,
`none` if the loop has not ended by then. -/
def Setup.loop (s : Setup K) : Nat → Nat → State → Option (Bits × Nat)
  | 0, _, _ => none
  | fuel + 1, i, st =>
    let r := s.step st
    if r.2 = 0 ∨ (s.iterations ≠ 0 ∧ s.iterations ≤ i + 1) then some (r.1.mask, i + 1)
    else s.loop fuel (i + 1) r.1

/-- `mask_pixels` (L570-610): the mask and the number of iterations, after at most `fuel` iterations. The hits are (column, row). -/
def maskPixels (s : Setup K) (hits : List (Int × Int)) (fuel : Nat) : Except HistErr (Option (Bits × Nat)) :=
  match hist2d (hits.map fun h => (h.1 - 1, h.2 - 1)) s.nx s.ny with
  | .error e => .error e
  | .ok h => .ok (s.loop fuel 0 ⟨fun p => h p.1 p.2, fun _ => false⟩)

end BTA.Mask
