import Verif.Model.Prealign
/-
Model of `plot_hough` (beam_telescope_analysis/tools/plot_utils.py L597-627), called by `prealign` for each axis (dut_alignment.py L329-344), and of the edges
of `hough_transform` (tools/analysis_utils.py L960-967).

Simplifications: floats are real numbers. Of a page only the image with its extent, the line and the markers are kept. `imshow` with `origin="lower"` draws the
rows from the bottom to the top and the columns from the left to the right. There is a PDF file (otherwise the function does nothing, L599-600).
-/
namespace BTA.Prealign

/-- An image in a plot: the extent and the entries; row 0 is at the bottom, column 0 on the left. -/
structure Picture where
  left : ℝ
  right : ℝ
  bottom : ℝ
  top : ℝ
  height : Nat
  width : Nat
  val : Nat → Nat → Nat

/-- analysis_utils.py L962, L965: the values between two neighbours. -/
noncomputable def middles : List ℝ → List ℝ
  | a :: b :: l => (b + a) / 2 :: middles (b :: l)
  | _ => []

/-- analysis_utils.py L961-966: the edges of the cells; none: IndexError (less than two cells). -/
noncomputable def edgesOf (l : List ℝ) : Option (List ℝ) :=
  match l with
  | a :: b :: _ => some (((middles l).headD 0 - (b - a)) :: middles l ++ [(middles l).getLastD 0 + (b - a)])
  | _ => none

/-- `np.rad2deg`. -/
noncomputable def rad2deg (x : ℝ) : ℝ := x * (180 / Real.pi)

/-- L607: `np.flip(np.flip(accumulator, 0), 1)` with the edges in degrees and in bins. -/
noncomputable def accumulatorPage (hg : Hough) : Option Picture :=
  match edgesOf hg.thetas, edgesOf hg.rhos with
  | some te, some re => some ⟨rad2deg (te.headD 0), rad2deg (te.getLastD 0), re.headD 0, re.getLastD 0, hg.rhos.length, hg.thetas.length,
      fun r c => hg.acc (hg.rhos.length - 1 - r) (hg.thetas.length - 1 - c)⟩
  | _, _ => none

/-- The second page, L614-627: the positions of the maxima, the line and the limits. -/
structure LinePage where
  picture : Picture
  line : List (ℝ × ℝ)
  limits : ℝ × ℝ

/-- L619-623. -/
noncomputable def linePage (nd : Node) (l : Line) (lim : ℝ × ℝ) : LinePage where
  picture := ⟨nd.dutExtent.1, nd.dutExtent.2, nd.refExtent.1, nd.refExtent.2, nd.image.rows, nd.image.cols, fun r c => if nd.image.pix r c then 1 else 0⟩
  line := nd.dutPos.map fun x => (x, nd.offsetPlot l + l.slope * x)
  limits := lim

/-- The pages of one axis (dut_alignment.py L272-344). -/
noncomputable def houghPages (env : Env) (nd : Node) (pixelSize : ℝ) : Except Err (Picture × LinePage) :=
  match nd.line env with
  | .error e => .error e
  | .ok l =>
    match posLimit env nd.dutPos (nd.inliers l pixelSize) with
    | .error e => .error e
    | .ok lim =>
      match accumulatorPage (hough nd.image (1 / 10) 1) with
      | none => .error .edges
      | some p => .ok (p, linePage nd l lim)

end BTA.Prealign
