/-
Model of the index histograms: `hist_1d_index`, `hist_2d_index`, `hist_3d_index`
(beam_telescope_analysis/tools/analysis_utils.py L311-399) with their C++ loops `histogram_1d`, `histogram_2d`,
`histogram_3d` (beam_telescope_analysis/cpp/AnalysisFunctions.h L148-193) and the casts in the cython wrapper
(beam_telescope_analysis/cpp/analysis_functions.pyx L44-53).
-/
namespace BTA

/-- `std::out_of_range` exceptions of AnalysisFunctions.h. -/
inductive HistErr
  /-- L154, L170, L186: index outside of the histogram -/
  | indexOutOfRange
  /-- L159, L175, L191: too many entries in one bin -/
  | binFull
deriving DecidableEq, Repr

/-- `x.astype(np.int32)` followed by the reinterpretation of the memory as `unsigned int` (analysis_utils.py L332,
analysis_functions.pyx L45): the value modulo 2^32. -/
def toUInt32 (x : Int) : Nat := (x % 2 ^ 32).toNat

/-- The loop common to L150-160, L166-176, L182-192: check the indices, check the bin content, increment. The bins are
given by their flat index. -/
def histLoop (inside : ι → Bool) (flat : ι → Nat) (cap : Nat) : List ι → (Nat → Nat) → Except HistErr (Nat → Nat)
  | [], h => .ok h
  | p :: r, h =>
    if !inside p then .error .indexOutOfRange
    else if h (flat p) < cap then
      histLoop inside flat cap r fun k => if k = flat p then h k + 1 else h k
    else .error .binFull

/-- `hist_1d_index(x, (nx,))`; the result maps the bin to its content. -/
def hist1d (x : List Int) (nx : Nat) : Except HistErr (Nat → Nat) :=
  histLoop (fun p => decide (p < nx)) (fun p => p) 4294967295 (x.map toUInt32) fun _ => 0

/-- Flat index of L172 in 32 bit unsigned arithmetic. -/
def flat2 (ny : Nat) (p : Nat × Nat) : Nat := (p.1 * ny + p.2) % 2 ^ 32

/-- `hist_2d_index(x, y, (nx, ny))` for arrays of the same length; the result maps (i, j) to the content of the bin in
the reshaped array (analysis_utils.py L364-366, C order). -/
def hist2d (xy : List (Int × Int)) (nx ny : Nat) : Except HistErr (Nat → Nat → Nat) :=
  (histLoop (fun p => decide (p.1 < nx) && decide (p.2 < ny)) (flat2 ny) 4294967295
    (xy.map fun p => (toUInt32 p.1, toUInt32 p.2)) fun _ => 0).map fun h i j => h (i * ny + j)

/-- Flat index of L188 in 32 bit unsigned arithmetic. -/
def flat3 (ny nz : Nat) (p : Nat × Nat × Nat) : Nat := (p.1 * ny * nz + p.2.1 * nz + p.2.2) % 2 ^ 32

/-- `hist_3d_index(x, y, z, (nx, ny, nz))` for arrays of the same length (analysis_utils.py L397-399). -/
def hist3d (xyz : List (Int × Int × Int)) (nx ny nz : Nat) : Except HistErr (Nat → Nat → Nat → Nat) :=
  (histLoop (fun p => decide (p.1 < nx) && decide (p.2.1 < ny) && decide (p.2.2 < nz)) (flat3 ny nz) 65535
    (xyz.map fun p => (toUInt32 p.1, toUInt32 p.2.1, toUInt32 p.2.2)) fun _ => 0).map
    fun h i j k => h (i * ny * nz + j * nz + k)

end BTA
