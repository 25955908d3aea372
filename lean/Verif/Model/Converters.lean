import Mathlib.Data.List.Basic
/-
Model of the converters: converter/pymosa_converter.py `format_hit_table` (L60-133) and converter/pybar_fei4_converter.py `format_hit_table`
(L88-137). The interpreters of the raw data (`process_dut`, external packages) are not modelled: the table of interpreted hits is an
arbitrary list of rows. A path denotes a file by its name as written (no links, no `./`). Event numbers are 64 bit signed integers, column
and row of the tables are 16 bit unsigned integers. `chunk_size` is not negative ("uint" in the documentation). Progress bar, compression
and titles are left out.
-/
namespace BTA.Converters

/-- File names. -/
abbrev Name := List Char

/-- A row of the output (`default_hits_dtype`, hit_analysis.py L26-33). -/
structure Hit where
  event : Int
  frame : Nat
  column : Nat
  row : Nat
  charge : Nat
  deriving DecidableEq, Repr

/-- A row of the interpreted Mimosa26 data (the fields used). -/
structure M26Hit where
  event : Int
  plane : Nat
  column : Nat
  row : Nat
  deriving DecidableEq, Repr

/-- A row of the interpreted FE-I4 data (the fields used). -/
structure Fei4Hit where
  event : Int
  relativeBcid : Nat
  column : Nat
  row : Nat
  tot : Nat
  deriving DecidableEq, Repr

/-- Exceptions. -/
inductive Err
  /-- ValueError: wrong number of output file names -/
  | wrongLength
  /-- ValueError of PyTables: a file is opened for writing that is open already -/
  | alreadyOpen
  /-- ValueError: step of `range` is zero -/
  | zeroStep
  /-- RuntimeError: The event number does not increase. -/
  | eventNumber
  deriving DecidableEq, Repr

/-- The hit tables in the output files. -/
abbrev Store := Name → Option (List Hit)

/-- A call: the files afterwards and either the names returned or an exception. -/
structure Outcome where
  store : Store
  result : Except Err (List Name)

/-- `os.path.splitext(p)[0]` (genericpath.py `_splitext`): everything before the last dot of the last component, if there is something else
than dots before it. -/
def splitRoot (p : Name) : Name :=
  match p.reverse.dropWhile fun c => c != '.' && c != '/' with
  | '.' :: r => if (r.takeWhile fun c => c != '/').any (fun c => c != '.') then r.reverse else p
  | _ => p

/-- int64 arithmetic of `np.diff`: the difference modulo 2^64. -/
def wrap64 (x : Int) : Int := (x + 2 ^ 63) % 2 ^ 64 - 2 ^ 63

/-- pymosa L114, pybar L125: `np.any(np.diff(...) < 0)`. -/
def decreases : List Int → Bool
  | a :: b :: l => decide (wrap64 (b - a) < 0) || decreases (b :: l)
  | _ => false

/-- `x[-1:]` -/
def lastOf {V : Type} (l : List V) : List V := l.drop (l.length - 1)

/-- pymosa L112-113, pybar L123-124: `read(i, i + chunk_size)` for `i in range(0, nrows, chunk_size)`. -/
def reads {V : Type} (chunk : Nat) (rows : List V) : List (List V) :=
  (List.range ((rows.length + (chunk - 1)) / chunk)).map fun k => (rows.drop (k * chunk)).take chunk

/-- Create a file with an empty table, or add rows to the table of a file. -/
def Store.create (s : Store) (n : Name) : Store := fun m => if m = n then some [] else s m

def Store.append (s : Store) (n : Name) (rows : List Hit) : Store := fun m => if m = n then (s m).map (· ++ rows) else s m

/-- pymosa L97-109, pybar L113-122: open the output files with mode 'w' and create the tables (a file that was
opened without a table counts as empty). -/
def openFiles : List Name → List Name → Store → Store × Bool
  | _, [], s => (s, true)
  | opened, n :: ns, s => if n ∈ opened then (s, false) else openFiles (n :: opened) ns (s.create n)

/-- pymosa L112-130, pybar L123-135: loop over the chunks. `write` appends the data of a chunk to the files. -/
def loop {R : Type} (event : R → Int) (write : List R → Store → Store) : List (List R) → List Int → Store → Store × Bool
  | [], _, s => (s, true)
  | c :: cs, lastEvent, s =>
    if decreases (lastEvent ++ c.map event) then (s, false)
    else loop event write cs (lastOf (c.map event)) (write c s)

/-- Both functions after the names of the files are known. -/
def format {R : Type} (event : R → Int) (write : List R → Store → Store) (rows : List R) (input : Name) (names : List Name) (chunk : Nat)
    (s : Store) : Outcome :=
  let o := openFiles [input] names s
  if !o.2 then ⟨o.1, .error .alreadyOpen⟩
  else if chunk = 0 then ⟨o.1, .error .zeroStep⟩
  else
    let l := loop event write (reads chunk rows) [0] o.1
    if l.2 then ⟨l.1, .ok names⟩ else ⟨l.1, .error .eventNumber⟩

/-- pymosa L119-126: `column` and `row` are counted from 1, in 16 bits. -/
def m26Format (h : M26Hit) : Hit := ⟨h.event, 0, (h.column + 1) % 2 ^ 16, (h.row + 1) % 2 ^ 16, 0⟩

/-- pymosa L117-129: the hits of each plane to its file. -/
def m26Write (planes : List (Nat × Name)) (c : List M26Hit) (s : Store) : Store :=
  planes.foldl (fun s p => s.append p.2 ((c.filter fun h => decide (h.plane = p.1)).map m26Format)) s

/-- pymosa L92: generated name. -/
def m26Name (input : Name) (id : Nat) : Name := splitRoot input ++ ("_header_id_".toList ++ (Nat.toDigits 10 id ++ ".h5".toList))

/-- pymosa L84-92: an empty list of names counts as none. -/
def m26Names (input : Name) (outputs : List Name) (ids : List Nat) : Except Err (List Name) :=
  match outputs with
  | [] => .ok (ids.map (m26Name input))
  | o :: os => if (o :: os).length ≠ ids.length then .error .wrongLength else .ok (o :: os)

/-- pymosa `format_hit_table`, L60-133. `outputs = []` stands for None, too; `ids` are the header IDs (given or default). -/
def m26FormatTable (rows : List M26Hit) (input : Name) (outputs : List Name) (ids : List Nat) (chunk : Nat) (s : Store) : Outcome :=
  match m26Names input outputs ids with
  | .error e => ⟨s, .error e⟩
  | .ok names => format M26Hit.event (m26Write (ids.zip names)) rows input names chunk s

/-- pybar L128-133 -/
def fei4Format (h : Fei4Hit) : Hit := ⟨h.event, h.relativeBcid, h.column, h.row, h.tot⟩

/-- pybar L106-107 -/
def fei4Name (input : Name) : Option Name → Name
  | some n => n
  | none => splitRoot input ++ "_formatted_fei4.h5".toList

/-- pybar `format_hit_table`, L88-137. The name returned is the only element of the list. -/
def fei4FormatTable (rows : List Fei4Hit) (input : Name) (output : Option Name) (chunk : Nat) (s : Store) : Outcome :=
  format Fei4Hit.event (fun c s => s.append (fei4Name input output) (c.map fei4Format)) rows input [fei4Name input output] chunk s

end BTA.Converters
