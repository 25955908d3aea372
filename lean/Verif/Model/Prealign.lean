import Verif.Model.Dut
import Verif.Model.EventArrays
import Mathlib.Analysis.Real.Sqrt
import Mathlib.Algebra.Order.Floor.Semiring
/-
Model of `prealign` and `find_inliers` (beam_telescope_analysis/dut_alignment.py L189-409) and of `hough_transform`
(beam_telescope_analysis/tools/analysis_utils.py L930-969).

Simplifications: floats are real numbers, counters are unbounded. `np.argpartition` and `np.argsort` (L288-289) leave the order of equal values
open: the sorting is a parameter. The kernel density estimate of scipy (L319-320) is a parameter. The telescope is the list of its DUTs; the files
and the plots are left out. Angles that cannot be calculated are an error value (`euler_angles` would return NaN in one of the cases).
-/
namespace BTA.Prealign
open BTA.Dut BTA.Geo

/-! ### Hough transformation -/

/-- analysis_utils.py L931: `np.linspace(-90.0, 0.0, n + 1)` where `n` is `int(np.ceil(90.0 / theta_res))`. -/
noncomputable def lowerDegrees (n : Nat) : List ℝ := (List.range (n + 1)).map fun i : Nat => -90 + (i : ℝ) * (90 / n)

/-- L931-933: the angles in rad: -90 degrees to 0 degrees and back with the other sign. -/
noncomputable def thetas (thetaRes : ℝ) : List ℝ :=
  let n := ⌈90 / thetaRes⌉₊
  (lowerDegrees n ++ ((lowerDegrees n).take n).reverse.map fun t => -t).map fun t => t * (Real.pi / 180)

/-- L935-936: half of the number of distances; `w` and `h` are the sizes of the image. -/
noncomputable def halfRhos (w h : Nat) (rhoRes : ℝ) : Nat := ⌈Real.sqrt (((w : ℝ) - 1) ^ 2 + ((h : ℝ) - 1) ^ 2) / rhoRes⌉₊

/-- L937-938: `np.linspace(-q * rho_res, q * rho_res, 2 * q + 1)`. -/
noncomputable def rhos (q : Nat) (rhoRes : ℝ) : List ℝ := (List.range (2 * q + 1)).map fun i : Nat => ((i : ℝ) - q) * rhoRes

/-- `np.argmin`: index of the first smallest value; `best` is the smallest value so far, `at` its index, `i` the current index. -/
noncomputable def argminFrom : List ℝ → Nat → Nat → ℝ → Nat
  | [], _, at', _ => at'
  | x :: xs, i, at', best => open Classical in if x < best then argminFrom xs (i + 1) i x else argminFrom xs (i + 1) at' best

/-- `np.argmin`; arrays are not empty. -/
noncomputable def argmin : List ℝ → Nat
  | [] => 0
  | x :: xs => argminFrom xs 1 0 x

/-- An image: the number of rows and columns (`img.shape`) and the pixels that are not zero. -/
structure Image where
  rows : Nat
  cols : Nat
  pix : Nat → Nat → Bool

/-- L944: `np.nonzero`: row and column of the pixels, in C order. -/
def Image.nonzero (img : Image) : List (Nat × Nat) :=
  (List.range img.rows).flatMap fun y => ((List.range img.cols).filter (img.pix y)).map fun x => (y, x)

/-- L955-956: index of the distance for a pixel and an angle. -/
noncomputable def rhoIndex (rs : List ℝ) (theta : ℝ) (p : Nat × Nat) : Nat :=
  argmin (rs.map fun r => |r - (p.2 * Real.cos theta + p.1 * Real.sin theta)|)

/-- L953-957: loop over the angles. -/
noncomputable def thetaLoop (rs : List ℝ) (p : Nat × Nat) : List ℝ → Nat → Hist2 → Hist2
  | [], _, acc => acc
  | t :: ts, i, acc => thetaLoop rs p ts (i + 1) (acc.inc (rhoIndex rs t p) i)

/-- L949-957: loop over the pixels. -/
noncomputable def pixelLoop (rs ts : List ℝ) : List (Nat × Nat) → Hist2 → Hist2
  | [], acc => acc
  | p :: ps, acc => pixelLoop rs ts ps (thetaLoop rs p ts 0 acc)

/-- The result of `hough_transform`, L967-969. -/
structure Hough where
  acc : Hist2
  thetas : List ℝ
  rhos : List ℝ

/-- `hough_transform`, L930-969, without the edges. -/
noncomputable def hough (img : Image) (thetaRes rhoRes : ℝ) : Hough :=
  let ts := thetas thetaRes
  let rs := rhos (halfRhos img.rows img.cols rhoRes) rhoRes
  ⟨pixelLoop rs ts img.nonzero fun _ _ => 0, ts, rs⟩

/-! ### Pre-alignment of one axis -/

inductive Err
  /-- L217: ValueError -/
  | sameFile
  /-- KeyError of the telescope -/
  | noDut
  /-- NoSuchNodeError of PyTables -/
  | noNode
  /-- exception of the DUT -/
  | dut (e : Dut.Err)
  /-- ValueError of `np.argmax`: no bins -/
  | emptyHist
  /-- analysis_utils.py L964: IndexError -/
  | edges
  /-- L306: RuntimeError -/
  | noCorrelation
  /-- L319: ValueError of `gaussian_kde`: less than two points -/
  | tooFewPoints
  /-- L327, L365-372: ValueError, minimum of an empty array -/
  | empty
  /-- L376: exception of `euler_angles`, or angles that are NaN -/
  | angles
deriving DecidableEq

/-- A node of the correlation file with its attributes (L262-269): `data` has one list of entries for every bin of the DUT. -/
structure Node where
  resolution : ℝ
  refExtent : ℝ × ℝ
  dutExtent : ℝ × ℝ
  data : List (List ℝ)

/-- What is left open: the sorting and the kernel density estimate. -/
structure Env where
  /-- L288-289: the cells in the order of decreasing values -/
  sort : (Nat × Nat → Nat) → List (Nat × Nat) → List (Nat × Nat)
  /-- L319-320: density of the points at a position -/
  density : List ℝ → ℝ → ℝ

/-- L272: `np.linspace` with `n` values from `start` to `stop`. -/
noncomputable def linspace (start stop : ℝ) (n : Nat) : List ℝ :=
  (List.range n).map fun i : Nat => start + (i : ℝ) * ((stop - start) / ((n : ℝ) - 1))

/-- L272: the centres of the bins of the DUT. -/
noncomputable def Node.dutPos (nd : Node) : List ℝ :=
  linspace (nd.dutExtent.1 + nd.resolution / 2) (nd.dutExtent.2 - nd.resolution / 2) nd.data.length

/-- `np.argmax` for one row: index of the first largest value. -/
noncomputable def argmax (l : List ℝ) : Nat := argmin (l.map fun x => -x)

/-- L275: `np.argmax(data, axis=1)`. -/
noncomputable def Node.maxSelect (nd : Node) : List Nat := nd.data.map argmax

/-- Number of bins of the reference, `data.shape[1]`. -/
def Node.refBins (nd : Node) : Nat := (nd.data.headD []).length

/-- L276-279: the image with one pixel for every bin of the DUT, transposed. -/
noncomputable def Node.image (nd : Node) : Image :=
  ⟨nd.refBins, nd.data.length, fun y x => nd.maxSelect[x]? == some y⟩

/-- L282-295: the cells of the accumulator that are not zero in the order of decreasing values. Without such a cell all are returned
(`[-0:]`). -/
noncomputable def largestIndices (env : Env) (hg : Hough) : List (Nat × Nat) :=
  let cells := (List.range hg.rhos.length).flatMap fun r => (List.range hg.thetas.length).map fun t => (r, t)
  let nonzero := cells.filter fun c => hg.acc c.1 c.2 != 0
  env.sort (fun c => hg.acc c.1 c.2) (if nonzero.isEmpty then cells else nonzero)

/-- Slope and offset of a line in units of bins. -/
structure Line where
  slope : ℝ
  offset : ℝ

/-- L298-299. Without sine (vertical line) the slope is infinite and never accepted; this is `none`. -/
noncomputable def lineOf (rho theta : ℝ) : Option Line := open Classical in
  if Real.sin theta = 0 then none else some ⟨-Real.cos theta / Real.sin theta, rho / Real.sin theta⟩

/-- L303: `np.isclose(slope, 1.0, rtol=0.0, atol=0.1)` or the same with -1.0. -/
noncomputable def properSlope (slope : ℝ) : Bool := open Classical in |slope - 1| ≤ 1 / 10 || |slope + 1| ≤ 1 / 10

/-- L296-306: the first cell with a proper slope. -/
noncomputable def findLine (hg : Hough) : List (Nat × Nat) → Except Err Line
  | [] => .error .noCorrelation
  | c :: cs =>
    match lineOf (hg.rhos.getD c.1 0) (hg.thetas.getD c.2 0) with
    | none => findLine hg cs
    | some l => if properSlope l.slope then .ok l else findLine hg cs

/-- `find_inliers`, L389-409. -/
noncomputable def findInliers (pts : List (ℝ × ℝ)) (m c threshold : ℝ) : List ℝ := open Classical in
  (pts.filter fun p => |m * p.1 + c - p.2| < threshold).map Prod.fst

/-- L313-314: the bins of the DUT with a maximum not in the first bin of the reference: position of the bin and position of the maximum, for a
reference with its centre at 0. -/
noncomputable def Node.points (nd : Node) : List (ℝ × ℝ) :=
  ((nd.dutPos.zip nd.maxSelect).filter fun p => p.2 != 0).map fun p =>
    (p.1, p.2 * nd.resolution - (nd.refExtent.2 - nd.refExtent.1) / 2 + nd.resolution / 2)

/-- L320-325: the positions with more than half of the maximum density. -/
noncomputable def dense (env : Env) (pos : List ℝ) (xs : List ℝ) : List ℝ := open Classical in
  pos.filter fun x => env.density xs x > ((pos.map (env.density xs)).tail.foldl max ((pos.map (env.density xs)).headD 0)) * (1 / 2)

/-- Smallest and largest value; none for an empty list (ValueError). -/
noncomputable def minMax : List ℝ → Option (ℝ × ℝ)
  | [] => none
  | x :: xs => some (xs.foldl min x, xs.foldl max x)

/-- What is found for one axis. -/
structure Fit where
  slope : ℝ
  offsetCenter : ℝ
  limit : ℝ × ℝ

/-- L319-327: the range in which the correlation exists. -/
noncomputable def posLimit (env : Env) (pos xs : List ℝ) : Except Err (ℝ × ℝ) :=
  if xs.length ≤ 1 then .error .tooFewPoints
  else
    match minMax (dense env pos xs) with
    | none => .error .empty
    | some lim => .ok lim

/-- L301: offset of the line in the coordinates of the reference. -/
noncomputable def Node.offset (nd : Node) (l : Line) : ℝ := l.offset * nd.resolution + nd.refExtent.1 + 1 / 2 * nd.resolution

/-- L308: position in the reference at the centre of the DUT. -/
noncomputable def Node.offsetCenter (nd : Node) (l : Line) : ℝ :=
  nd.offset l + l.slope * (1 / 2 * (nd.dutExtent.2 - nd.dutExtent.1) - 1 / 2 * nd.resolution)

/-- L310: offset of the line in the coordinates of the DUT. -/
noncomputable def Node.offsetPlot (nd : Node) (l : Line) : ℝ := nd.offset l - l.slope * nd.dutPos.headD 0

/-- L312-317: the positions close to the line. -/
noncomputable def Node.inliers (nd : Node) (l : Line) (pixelSize : ℝ) : List ℝ :=
  findInliers nd.points l.slope (nd.offsetPlot l) (pixelSize * Real.sqrt 12 * 2)

/-- L272-306: the line of the correlation. The edges of the accumulator (analysis_utils.py L961-966) need two distances. -/
noncomputable def Node.line (env : Env) (nd : Node) : Except Err Line :=
  if nd.data.isEmpty || nd.refBins == 0 then .error .emptyHist
  else if (hough nd.image (1 / 10) 1).rhos.length ≤ 1 then .error .edges
  else findLine (hough nd.image (1 / 10) 1) (largestIndices env (hough nd.image (1 / 10) 1))

/-- L272-327: one axis of a DUT. -/
noncomputable def fitAxis (env : Env) (nd : Node) (pixelSize : ℝ) : Except Err Fit :=
  match nd.line env with
  | .error e => .error e
  | .ok l =>
    match posLimit env nd.dutPos (nd.inliers l pixelSize) with
    | .error e => .error e
    | .ok lim => .ok ⟨l.slope, nd.offsetCenter l, lim⟩

/-! ### Pre-alignment of the DUTs -/

/-- A DUT of the telescope. -/
structure PDut where
  pixels : Pixels ℝ
  align : Alignment
  xLimit : Option (ℝ × ℝ)
  yLimit : Option (ℝ × ℝ)

/-- L235-242: all pixels. -/
noncomputable def allPixels (d : Pixels ℝ) : List (ℝ × ℝ) :=
  (List.range d.nColumns).flatMap fun c : Nat => (List.range d.nRows).map fun r : Nat => ((c : ℝ) + 1, (r : ℝ) + 1)

/-- Setter of `x_limit` and `y_limit`, telescope/dut.py L111-116, L122-127: smaller and larger value. -/
noncomputable def setLimit (l : ℝ × ℝ) : ℝ × ℝ := (min l.1 l.2, max l.1 l.2)

/-- L365-372: the new limit from the smallest and largest coordinate and the old limit. -/
noncomputable def newLimit (old : Option (ℝ × ℝ)) (m : ℝ × ℝ) : ℝ × ℝ :=
  match old with
  | none => setLimit m
  | some o => setLimit (max m.1 o.1, min m.2 o.2)

/-- L346-354: select the pixels in the range of the correlation. -/
noncomputable def inRange (x y : ℝ × ℝ) (p : Vec3) : Bool := open Classical in
  (x.1 ≤ p 0 && p 0 ≤ x.2) && (y.1 ≤ p 1 && p 1 ≤ y.2)

/-- L247-250, L350-356: the rotation with the turns for negative slopes. -/
noncomputable def newRotation (a : Alignment) (sx sy : ℝ) : Mat3 := open Classical in
  let R := rotationMatrix a.alpha a.beta a.gamma
  let R := if sx < 0 then rotY Real.pi * R else R
  if sy < 0 then rotX Real.pi * R else R

/-- L361-379: set the new parameters; `pixels` are the global positions of all pixels. -/
noncomputable def setDut (d : PDut) (pixels : List Vec3) (fx fy : Fit) : Except Err PDut :=
  match globalToLocal d.align {} (pixels.filter (inRange fx.limit fy.limit)) with
  | .error e => .error (.dut e)
  | .ok loc =>
    match minMax (loc.map fun p => p 0), minMax (loc.map fun p => p 1) with
    | some mx, some my =>
      match eulerAngles (newRotation d.align fx.slope fy.slope) with
      | .angles alpha beta gamma =>
        .ok { d with
          xLimit := some (newLimit d.xLimit mx)
          yLimit := some (newLimit d.yLimit my)
          align := { d.align with x := fx.offsetCenter, y := fy.offsetCenter, alpha := alpha, beta := beta, gamma := gamma } }
      | _ => .error .angles
    | _, _ => .error .empty

/-- The correlation file: for every DUT the nodes of the x and of the y axis (L254-257). -/
abbrev File := Nat → Bool → Option Node

/-- L233-379: one DUT; `refOk` says that the telescope has the reference DUT (L259). -/
noncomputable def prealignDut (env : Env) (file : File) (refOk : Bool) (i : Nat) (d : PDut) : Except Err PDut :=
  match indexToGlobal d.pixels d.align {} (allPixels d.pixels) with
  | .error e => .error (.dut e)
  | .ok pixels =>
    match file i true with
    | none => .error .noNode
    | some nx =>
      if !refOk then .error .noDut
      else
      match fitAxis env nx d.pixels.columnSize with
      | .error e => .error e
      | .ok fx =>
        match file i false with
        | none => .error .noNode
        | some ny =>
          match fitAxis env ny d.pixels.rowSize with
          | .error e => .error e
          | .ok fy => setDut d pixels fx fy

/-- L232-379: loop over the DUTs. -/
noncomputable def dutLoop (env : Env) (file : File) (refOk : Bool) : List Nat → List PDut → Except Err (List PDut)
  | [], tel => .ok tel
  | i :: is, tel =>
    match tel[i]? with
    | none => .error .noDut
    | some d =>
      match prealignDut env file refOk i d with
      | .error e => .error e
      | .ok d' => dutLoop env file refOk is (tel.set i d')

/-- L220-223: the DUTs to be aligned. The order is the one of a Python set, here the one of the first occurrence. -/
def selected (n ref : Nat) (sel : Option (List Nat)) : List Nat := ((sel.getD (List.range n)).dedup).filter fun i => i != ref

/-- `prealign`, L189-386: `sameFile` says that the output configuration has the name of the input configuration. The result is the saved
telescope. The correlation file is the one for the given reference DUT. -/
noncomputable def prealign (env : Env) (file : File) (tel : List PDut) (sameFile : Bool) (sel : Option (List Nat)) (ref : Nat) :
    Except Err (List PDut) :=
  if sameFile then .error .sameFile
  else dutLoop env file (decide (ref < tel.length)) (selected tel.length ref sel) tel

end BTA.Prealign
