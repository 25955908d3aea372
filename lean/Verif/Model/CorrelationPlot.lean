import Verif.Model.PrealignChain
/-
Model of `plot_correlations` (beam_telescope_analysis/tools/plot_utils.py L537-594), with the names of the arrays that `correlate` writes
(hit_analysis.py L1399-1466) and the group that the decorator `save_arguments` adds to the file after `correlate` has returned
(tools/storage_utils.py L71-96).

Simplifications: floats are real numbers; `\d` in the regular expression is an ASCII digit; the nodes of the file come in some order (PyTables sorts
the names); of a page only the title, the names and the image with its extent are kept (not the colours).
-/
namespace BTA.CorrPlot
open BTA.Corr BTA.Prealign

inductive Err
  /-- L557-558: IndexError, the name of a node has less than two numbers (only AttributeError is caught, L567) -/
  | name
  /-- L569: exception of PyTables, a group has no attributes `ref_hist_extent` -/
  | group
  /-- L586-587: IndexError, the list of names is too short -/
  | dutName
deriving DecidableEq

/-- An array of the file, with `rows` rows and `cols` columns, and its attributes. -/
structure Arr where
  refExtent : ℝ × ℝ
  dutExtent : ℝ × ℝ
  rows : Nat
  cols : Nat
  val : Nat → Nat → Int

/-- A node of the file: its name, and the array if it is not a group. -/
structure HNode where
  name : List Char
  array : Option Arr

/-- A page of the PDF file. `extent`: left, right, bottom, top of the image (L585); `image row col` with `height` rows (from the bottom, `origin="lower"`)
and `width` columns. -/
structure Page where
  xDirection : Bool
  reduced : Bool
  refName : List Char
  dutName : List Char
  extent : (ℝ × ℝ) × (ℝ × ℝ)
  height : Nat
  width : Nat
  image : Nat → Nat → Int

/-- The text between two numbers starts a new number: the groups of digits of a text; `cur` are the digits read so far (reversed). -/
def digitRuns : List Char → List Char → List (List Char)
  | cur, [] => if cur.isEmpty then [] else [cur.reverse]
  | cur, c :: s => if c.isDigit then digitRuns (c :: cur) s else (if cur.isEmpty then [] else [cur.reverse]) ++ digitRuns [] s

/-- L556-558: `re.findall(r'\d+', name)`, converted with `int`. -/
def numbers (s : List Char) : List Nat := (digitRuns [] s).map fun d => Nat.ofDigitChars 10 d 0

/-- L586-587: `dut_names[index] if dut_names else "DUT" + str(index)`. -/
def dutName (names : Option (List (List Char))) (i : Nat) : Option (List Char) :=
  match names with
  | none => some ("DUT".toList ++ Nat.toDigits 10 i)
  | some [] => some ("DUT".toList ++ Nat.toDigits 10 i)
  | some l => l[i]?

/-- L574: `np.all(data <= 0)`. -/
def allZero (a : Arr) : Bool := (List.range a.rows).all fun i => (List.range a.cols).all fun j => decide (a.val i j ≤ 0)

/-- L555-592: one node; `none`: no page. -/
def plotNode (names : Option (List (List Char))) (n : HNode) : Except Err (Option Page) :=
  match numbers n.name with
  | ref :: dut :: _ =>
    match n.array with
    | none => .error .group
    | some a =>
      if allZero a then .ok none
      else match dutName names dut, dutName names ref with
        | some dn, some rn =>
          .ok (some ⟨decide ("Correlation_x".toList <:+: n.name), decide ("background".toList <:+: n.name), rn, dn, (a.dutExtent, a.refExtent),
            a.cols, a.rows, fun r c => a.val c r⟩)
        | _, _ => .error .dutName
  | _ => .error .name

/-- `plot_correlations`: the pages that are saved and the exception. The PDF file exists if there is a page (L552: `keep_empty=False`). -/
def plotCorrelations (names : Option (List (List Char))) : List HNode → List Page × Option Err
  | [] => ([], none)
  | n :: rest =>
    match plotNode names n with
    | .error e => ([], some e)
    | .ok none => plotCorrelations names rest
    | .ok (some p) => let q := plotCorrelations names rest; (p :: q.1, q.2)

/-- hit_analysis.py L1401, L1415, L1431, L1445: the name of an array. The numbers of the DUTs are not negative (L1277, L1296). -/
def nodeName (x reduced : Bool) (ref dut : Nat) : List Char :=
  (if x then "Correlation_x_".toList else "Correlation_y_".toList) ++ Nat.toDigits 10 ref ++ ['_'] ++ Nat.toDigits 10 dut ++
    (if reduced then "_reduced_background".toList else [])

/-- hit_analysis.py L1399-1466: an array of a pair of DUTs. -/
noncomputable def nodeOf (res : ℝ × ℝ) (e : Entry) (x reduced : Bool) : HNode :=
  ⟨nodeName x reduced e.ref.toNat e.dut.toNat, some (
    if x then ⟨extentOf e.ra.x res.1, extentOf e.da.x res.1, e.da.x.bins, e.ra.x.bins, fun i j => if reduced then e.xReduced i j else (e.x i j : Int)⟩
    else ⟨extentOf e.ra.y res.2, extentOf e.da.y res.2, e.da.y.bins, e.ra.y.bins, fun i j => if reduced then e.yReduced i j else (e.y i j : Int)⟩)⟩

/-- hit_analysis.py L1399-1455: the arrays of a pair of DUTs. -/
noncomputable def nodesOf (res : ℝ × ℝ) (e : Entry) : List HNode :=
  [nodeOf res e true false, nodeOf res e false false, nodeOf res e true true, nodeOf res e false true]

/-- The group with the arguments of `correlate` (tools/storage_utils.py L44, L93). -/
def argumentsNode : HNode := ⟨"arguments".toList, none⟩

end BTA.CorrPlot
