import Verif.Model.Dut
import Verif.Model.ChunkReader
/-
Model of `apply_alignment` (beam_telescope_analysis/dut_alignment.py L50-186): the coordinates of all tables of a file are converted from
local to global coordinates or back.

Floats are real numbers (no rounding); a position whose coordinates are NaN (no hit, no fit) is `none`: x, y and z are always NaN
together in the tables of this package. The three columns x, y, z of a quantity are one column of points.
-/
namespace BTA.Apply
open BTA.Geo BTA.Dut

/-- The columns that are converted: `x_dut_i`, `offset_x_dut_i`, `slope_x_dut_i`, `x_err_dut_i`, `offset_x`, `slope_x` (and y, z). -/
inductive Col
  | hit (i : Nat)
  | offsetDut (i : Nat)
  | slopeDut (i : Nat)
  | err (i : Nat)
  | offset
  | slope
deriving DecidableEq

/-- A row: event number, the columns above and all other columns. -/
structure Row (α : Type) where
  event : Int
  pos : Col → Option Vec3
  rest : α

/-- A table of the file: name, columns (`dtype.names`) and rows. -/
structure Node (α : Type) where
  name : String
  has : Col → Bool
  rows : List (Row α)

inductive Err
  /-- the table has no column for the hits of a DUT (ValueError of numpy) -/
  | noColumn
  /-- exception of the conversion -/
  | position (e : Dut.Err)
  /-- exception of `data_aligned_at_events` -/
  | read (e : ReadErr)
deriving DecidableEq

/-- `part in text`. -/
def occurs (part text : String) : Bool := decide (part.toList <:+: text.toList)

/-- Put the values where the array is not NaN. -/
def fill : List (Option Vec3) → List Vec3 → List (Option Vec3)
  | none :: l, vs => none :: fill l vs
  | some _ :: l, v :: vs => some v :: fill l vs
  | some _ :: l, [] => none :: fill l []
  | [], _ => []

/-- `conv(x=..., y=..., z=..., translation_x=..., ...)` for arrays with NaN: `local_to_global_position` or `global_to_local_position` of
the DUT (L172-175). NaN is not checked (`nan_to_num`) and stays NaN. -/
noncomputable def conv (toGlobal : Bool) (dut : Alignment) (o : Override) (points : List (Option Vec3)) : Except Err (List (Option Vec3)) :=
  match (if toGlobal then localToGlobal dut o (points.filterMap id) else globalToLocal dut o (points.filterMap id)) with
  | .error e => .error (.position e)
  | .ok vs => .ok (fill points vs)

/-- An assignment of `convert_data`: the column, the parameters given to `conv` and whether `np.abs` is taken. -/
structure Assignment where
  col : Col
  override : Override
  absolute : Bool

/-- All parameters of an alignment (L92-97, L114-119). -/
def fullOverride (b : Alignment) : Override := ⟨some b.x, some b.y, some b.z, some b.alpha, some b.beta, some b.gamma⟩

/-- No translation (L131-136, L146-151). -/
def turnOverride (b : Alignment) : Override := ⟨some 0, some 0, some 0, some b.alpha, some b.beta, some b.gamma⟩

/-- L87-102: the hits are converted with the parameters of the telescope, or with those of the DUT (no parameters given). -/
def hitOverride (beam : Option Alignment) : Override := match beam with | none => {} | some t => fullOverride t

/-- `convert_data` (L86-151): the assignments in their order. `dut` is the alignment of the DUT that owns `conv`; `beam` is the
alignment of the telescope if the argument `dut` is the telescope. -/
def assignments {α : Type} (node : Node α) (dut : Alignment) (beam : Option Alignment) (i : Nat) : List Assignment :=
  let b := beam.getD dut
  let named := occurs ("DUT" ++ toString i) node.name
  let hits : List Assignment := [⟨.hit i, hitOverride beam, false⟩]
  if occurs "Tracks" node.name then
    hits ++
    ((.offsetDut i :: if named then [.offset] else []).filter node.has).map (fun c => ⟨c, fullOverride b, false⟩) ++
    ((.slopeDut i :: if named then [.slope] else []).filter node.has).map (fun c => ⟨c, turnOverride b, false⟩) ++
    ([.err i].filter node.has).map (fun c => ⟨c, turnOverride b, true⟩)
  else hits

/-- One assignment. -/
noncomputable def assign {α : Type} (toGlobal : Bool) (node : Node α) (dut : Alignment) (a : Assignment) (rows : List (Row α)) :
    Except Err (List (Row α)) :=
  if node.has a.col then
    match conv toGlobal dut a.override (rows.map fun r => r.pos a.col) with
    | .error e => .error e
    | .ok vs =>
      let vs := if a.absolute then vs.map (Option.map fun v k => |v k|) else vs
      .ok (List.zipWith (fun r v => { r with pos := Function.update r.pos a.col v }) rows vs)
  else .error .noColumn

/-- A sequence of assignments, each with the DUT that owns `conv`. -/
noncomputable def assignAll {α : Type} (toGlobal : Bool) (node : Node α) : List (Alignment × Assignment) → List (Row α) →
    Except Err (List (Row α))
  | [], rows => .ok rows
  | (dut, a) :: l, rows =>
    match assign toGlobal node dut a rows with
    | .error e => .error e
    | .ok rows' => assignAll toGlobal node l rows'

/-- The arguments: direction, alignment of the telescope, `align_to_beam`, chunk size. -/
structure Args where
  toGlobal : Bool
  telescope : Alignment
  alignToBeam : Bool
  chunkSize : Nat

/-- L177-181: the calls of `convert_data` for a DUT: the second argument is given for the telescope. -/
def calls (args : Args) : List (Option Alignment) :=
  (if args.alignToBeam && !args.toGlobal then [some args.telescope] else []) ++ [none] ++
  (if args.alignToBeam && args.toGlobal then [some args.telescope] else [])

/-- L171-181: all assignments of a chunk, in the order of the DUTs. -/
def chunkAssignments {α : Type} (args : Args) (duts : List Alignment) (node : Node α) : List (Alignment × Assignment) :=
  duts.zipIdx.flatMap fun p => (calls args).flatMap fun beam => (assignments node p.1 beam p.2).map fun a => (p.1, a)

/-- L170-182: the loop over the chunks; the rows of the new table. -/
noncomputable def chunkLoop {α : Type} (args : Args) (duts : List Alignment) (node : Node α) : List (List (Row α)) →
    Except Err (List (Row α))
  | [] => .ok []
  | c :: r =>
    match assignAll args.toGlobal node (chunkAssignments args duts node) c with
    | .error e => .error e
    | .ok c' =>
      match chunkLoop args duts node r with
      | .error e => .error e
      | .ok r' => .ok (c' ++ r')

/-- L156-182: one table. -/
noncomputable def applyNode {α : Type} (args : Args) (duts : List Alignment) (node : Node α) : Except Err (Node α) :=
  let g := dataAligned Row.event node.rows { chunkSize := args.chunkSize }
  match chunkLoop args duts node (g.items.map Prod.fst) with
  | .error e => .error e
  | .ok rows =>
    match g.err with
    | some e => .error (.read e)
    | none => .ok { node with rows := rows }

/-- `apply_alignment`: the tables of the new file. `duts` are the DUTs in the order of their ids. -/
noncomputable def applyAlignment {α : Type} (args : Args) (duts : List Alignment) : List (Node α) → Except Err (List (Node α))
  | [] => .ok []
  | n :: r =>
    match applyNode args duts n with
    | .error e => .error e
    | .ok n' =>
      match applyAlignment args duts r with
      | .error e => .error e
      | .ok r' => .ok (n' :: r')

end BTA.Apply
