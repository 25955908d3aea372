import Verif.Model.Dut
import Verif.Model.ChunkReader
import Mathlib.Algebra.Order.Floor.Semiring
/-
Model of the conversion of hit files between column/row and local positions, beam_telescope_analysis/hit_analysis.py:
`convert` (L35-84) and `convert_coordinates` (L87-177).

Simplifications: a table is a list of column names and a list of rows; a row has an event number and a value for every other column.
Only the values of the names of the table mean anything. Numbers are exact (elements of an ordered field), the 16 bit columns of the
output are the integral part modulo 2^16. Table title, compression, progress bar and log messages are left out. The files are a map
from names to tables; what is on disk after an exception is not tracked. `stem` is the part of a file name before the extension
(`os.path.splitext(name)[0]`).
-/
namespace BTA.Convert

open BTA.Dut

/-- A hit. -/
structure Row (K : Type) where
  event : Int
  value : String → K

/-- The table `Hits`; `names` are the columns other than `event_number`. -/
structure Table (K : Type) where
  names : List String
  rows : List (Row K)

inductive Err
  /-- UnboundLocalError: `output_file` is only set if no output file is given, L110-114 -/
  | unboundLocal
  /-- the input file does not exist -/
  | noFile
  /-- ValueError of `np.dtype`: a column name occurs twice, L138 -/
  | duplicateName
  /-- ValueError: no field of that name -/
  | noField
  /-- error of the coordinate methods of the DUT -/
  | dut (e : Dut.Err)
  /-- error of `data_aligned_at_events` -/
  | read (e : ReadErr)
  /-- ValueError: `select_duts` -/
  | badSelection
  /-- ValueError: wrong number of input or output files -/
  | wrongLength
  /-- IndexError -/
  | index

/-- L118-127, L129-137: the names of the columns of the new table. -/
def outNames (toLocal : Bool) (names : List String) : List String :=
  if toLocal then names.map fun n => if n = "column" then "x" else if n = "row" then "y" else n
  else names.filterMap fun n =>
    if n = "x" then some "column" else if n = "y" then some "row" else if n = "z" then none else some n

section
variable {K : Type} [Field K] [LinearOrder K]

/-- L153-165: a row of the new table with local positions. -/
def setLocal (r : Row K) (p : K × K × K) : Row K :=
  { event := r.event, value := fun n => if n = "x" then p.1 else if n = "y" then p.2.1 else r.value n }

/-- L163-165: one chunk, index to local position. -/
def chunkToLocal (d : Pixels K) (names : List String) (c : List (Row K)) : Except Err (List (Row K)) :=
  if "column" ∈ names ∧ "row" ∈ names then
    match indexToLocal d (c.map fun r => (r.value "column", r.value "row")) with
    | .error e => .error (.dut e)
    | .ok ps => .ok (List.zipWith setLocal c ps)
  else .error .noField

variable [FloorSemiring K]

/-- Assignment of a float array to a column of type uint16: the integral part, modulo 2^16. The values are not negative. -/
def toUint16 (v : K) : K := ((⌊v⌋₊ % 2 ^ 16 : Nat) : K)

/-- L153-171: a row of the new table with column and row. -/
def setIndex (r : Row K) (p : K × K) : Row K :=
  { event := r.event, value := fun n => if n = "column" then toUint16 p.1 else if n = "row" then toUint16 p.2 else r.value n }

/-- L167-171: one chunk, local position to index; z is 0. -/
def chunkToIndex (d : Pixels K) (names : List String) (c : List (Row K)) : Except Err (List (Row K)) :=
  if "x" ∈ names ∧ "y" ∈ names then
    match localToIndex d (c.map fun r => (r.value "x", r.value "y")) (some [0]) with
    | .error e => .error (.dut e)
    | .ok ps => .ok (List.zipWith setIndex c ps)
  else .error .noField

/-- L152-171: one chunk. -/
def convertChunk (toLocal : Bool) (d : Pixels K) (names : List String) (c : List (Row K)) : Except Err (List (Row K)) :=
  if toLocal then chunkToLocal d names c else chunkToIndex d names c

/-- L151-174: loop over the chunks. -/
def chunkLoop (toLocal : Bool) (d : Pixels K) (names : List String) : List (List (Row K)) → Except Err (List (Row K))
  | [] => .ok []
  | c :: cs =>
    match convertChunk toLocal d names c with
    | .error e => .error e
    | .ok o =>
      match chunkLoop toLocal d names cs with
      | .error e => .error e
      | .ok os => .ok (o ++ os)

/-- L115-174: the table of the output file. -/
def convertTable (toLocal : Bool) (chunkSize : Nat) (d : Pixels K) (t : Table K) : Except Err (Table K) :=
  if (outNames toLocal t.names).Nodup then
    match chunkLoop toLocal d t.names ((dataAligned Row.event t.rows { chunkSize := chunkSize }).items.map Prod.fst) with
    | .error e => .error e
    | .ok rows =>
      match (dataAligned Row.event t.rows { chunkSize := chunkSize }).err with
      | some e => .error (.read e)
      | none => .ok { names := outNames toLocal t.names, rows := rows }
  else .error .duplicateName

/-- The files on disk. -/
abbrev Files (K : Type) := String → Option (Table K)

/-- Write a file. -/
def write (fs : Files K) (name : String) (t : Table K) : Files K := fun n => if n = name then some t else fs n

/-- L111: end of the name of the output file. -/
def suffix (toLocal : Bool) : String := if toLocal then "_local_coordinates.h5" else "_index.h5"

/-- L113-177: with the name of the output file. -/
def convertTo (toLocal : Bool) (chunkSize : Nat) (d : Pixels K) (fs : Files K) (input output : String) :
    Except Err (Files K × String) :=
  match fs input with
  | none => .error .noFile
  | some t =>
    match convertTable toLocal chunkSize d t with
    | .error e => .error e
    | .ok t' => .ok (write fs output t', output)

/-- `convert_coordinates`, L88-177: the files afterwards and the name returned. -/
def convertCoordinates (stem : String → String) (toLocal : Bool) (chunkSize : Nat) (d : Pixels K) (fs : Files K) (input : String)
    (output : Option String) : Except Err (Files K × String) :=
  match output with
  | none => convertTo toLocal chunkSize d fs input (stem input ++ suffix toLocal)
  | some _ => if (fs input).isSome then .error .unboundLocal else .error .noFile

/-- L76-84: loop over the selected DUTs; the files are taken in the order of the list. -/
def convertLoop (stem : String → String) (toLocal : Bool) (chunkSize : Nat) :
    List (Pixels K) → Files K → List String → List (Option String) → Except Err (Files K × List String)
  | [], fs, _, _ => .ok (fs, [])
  | d :: ds, fs, i :: is, o :: os =>
    match convertCoordinates stem toLocal chunkSize d fs i o with
    | .error e => .error e
    | .ok (fs', n) =>
      match convertLoop stem toLocal chunkSize ds fs' is os with
      | .error e => .error e
      | .ok (fs'', ns) => .ok (fs'', n :: ns)
  | _ :: _, _, _, _ => .error .index

/-- L65: `max(select_duts) > n_duts or min(select_duts) < 0`, and the error of `max` of an empty list. -/
def badSelect (n : Nat) (sel : List Int) : Bool := sel.isEmpty || sel.any fun s => (n : Int) < s || s < 0

/-- L69: the selected DUTs in the order of the telescope. -/
def selected (telescope : List (Pixels K)) (sel : List Int) : List (Pixels K) :=
  (telescope.zipIdx.filter fun p => (p.2 : Int) ∈ sel).map Prod.fst

/-- L80: the output file handed on for every input file. -/
def outputs (inputs : List String) : Option (List String) → List (Option String)
  | none => inputs.map fun _ => none
  | some os => os.map some

/-- L61-62: all DUTs by default. -/
def selection (n : Nat) : Option (List Int) → List Int
  | none => (List.range n).map fun (i : Nat) => (i : Int)
  | some s => s

/-- L72: an output file for every selected DUT. -/
def outputsMatch (n : Nat) : Option (List String) → Bool
  | none => true
  | some os => n == os.length

/-- `convert`, L35-84: the files afterwards and the names returned. -/
def convert (stem : String → String) (toLocal : Bool) (chunkSize : Nat) (telescope : List (Pixels K)) (fs : Files K)
    (inputs : List String) (outs : Option (List String)) (select : Option (List Int)) : Except Err (Files K × List String) :=
  let sel := selection telescope.length select
  if badSelect telescope.length sel then .error .badSelection
  else if sel.length ≠ inputs.length then .error .wrongLength
  else if outputsMatch sel.length outs = false then .error .wrongLength
  else convertLoop stem toLocal chunkSize (selected telescope sel) fs inputs (outputs inputs outs)

end

end BTA.Convert
