import Verif.Model.CheckFile
/-
Model of `plot_checks` (beam_telescope_analysis/tools/plot_utils.py L630-666) on the arrays that `check_file` writes (hit_analysis.py L327-417), and on the file
after `check_file` has returned, when the decorator `save_arguments` has added the group "arguments" (tools/storage_utils.py L71-96).

Simplifications: as Model/CheckFile. The nodes of the file come in some order (PyTables sorts the names). Of a page only the node (title), the curve or the image are kept.
The subtraction of event numbers is that of whole numbers (no unsigned overflow: the event numbers increase).
-/
namespace BTA.Check

/-- The nodes of the file: EventDelta, EventNumber, CorrelationColumns, CorrelationRows and the group "arguments". -/
inductive NodeName
  | eventDelta
  | eventNumber
  | columns
  | rows
  | arguments
deriving DecidableEq

/-- Content of a node: array with one dimension, array with two dimensions, or a group. -/
inductive NodeData
  | curve (values : List Int)
  | image (rows cols : Nat) (val : Hist2)
  | group

/-- A page with a curve (values at 0, 1, 2, ...) or an image; `val row col`, row 0 is at the bottom (`origin="lower"`), pixel (row, col) is drawn at (x, y) = (col, row). -/
inductive PageData
  | curve (values : List Int)
  | image (height width : Nat) (val : Nat → Nat → Nat)

structure CheckPage where
  node : NodeName
  data : PageData

/-- L646: TypeError, a group has no rows. -/
inductive PlotErr
  | group
deriving DecidableEq

/-- L646-665: one node; `none`: no page (L648-650: `np.all(data <= 0)`, also true for an empty array). -/
def checkPage (n : NodeName × NodeData) : Except PlotErr (Option CheckPage) :=
  match n.2 with
  | .group => .error .group
  | .curve l => .ok (if l.all (fun v => decide (v ≤ 0)) then none else some ⟨n.1, .curve l⟩)
  | .image h w val => .ok (if (List.range h).all (fun i => (List.range w).all fun j => decide (val i j ≤ 0)) then none
      else some ⟨n.1, .image w h fun r c => val c r⟩)

/-- `plot_checks`: the saved pages and the exception. -/
def plotChecks : List (NodeName × NodeData) → List CheckPage × Option PlotErr
  | [] => ([], none)
  | n :: rest =>
    match checkPage n with
    | .error e => ([], some e)
    | .ok none => plotChecks rest
    | .ok (some p) => (p :: (plotChecks rest).1, (plotChecks rest).2)

/-- hit_analysis.py L317-325, L327-346, L396-417: the arrays of the file. -/
def checkNodes {K : Type} [Field K] [LinearOrder K] [FloorRing K] (a : Args K) (s : State) : List (NodeName × NodeData) :=
  let nx := nBins (a.dut.nColumns * a.dut.columnSize) a.res.1
  let ny := nBins (a.dut.nRows * a.dut.rowSize) a.res.2
  [(.eventDelta, .curve s.eventDelta), (.eventNumber, .curve s.eventNumber), (.columns, .image nx nx s.xCorr), (.rows, .image ny ny s.yCorr)]

end BTA.Check
