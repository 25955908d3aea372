import Mathlib.Data.List.Basic
/-
Model of the wrappers `check` (hit_analysis.py L181-246), `mask` (L426-518) and `cluster` (L647-778): the calls of `check_file`, `mask_pixels`
and `cluster_hits` they make. The function called is not modelled here (see CheckFile, MaskPixels, ClusterHits); `plot` and `chunk_size` are
handed on unchanged and left out. Floats are an arbitrary type, a disable mask is an arbitrary value.
-/
namespace BTA.HitFiles

/-- Exceptions. -/
inductive Err
  /-- `max` of an empty list -/
  | emptySelection
  | invalidSelection
  | wrongLength
  /-- list index out of range -/
  | index
  deriving DecidableEq, Repr

/-- A parameter: one value for all DUTs, or a list (or tuple) with a value for each DUT. -/
inductive Setting (V : Type) where
  | one (v : V)
  | many (l : List V)

/-- L222-226 and all that follow the same pattern. -/
def perDut {V : Type} (n : Nat) : Setting V → Except Err (List V)
  | .one v => .ok (List.replicate n v)
  | .many l => if n ≠ l.length then .error .wrongLength else .ok l

/-- L220-221: an optional list of file names. -/
def perFile (n : Nat) : Option (List String) → Except Err (List (Option String))
  | none => .ok (List.replicate n none)
  | some l => if n ≠ l.length then .error .wrongLength else .ok (l.map some)

/-- L209-210: all DUTs by default. -/
def selection (n : Nat) : Option (List Int) → List Int
  | none => (List.range n).map fun (i : Nat) => (i : Int)
  | some s => s

/-- L213-214: `max(select_duts) > n_duts or min(select_duts) < 0`. -/
def checkSelection (n : Nat) (sel : List Int) : Except Err Unit :=
  if sel = [] then .error .emptySelection
  else if sel.any (fun s => decide ((n : Int) < s)) || sel.any (fun s => decide (s < 0)) then .error .invalidSelection
  else .ok ()

/-- L218-219: the number of files. -/
def checkFiles (sel : List Int) (files : List String) : Except Err Unit :=
  if sel.length ≠ files.length then .error .wrongLength else .ok ()

/-- L218: DUTs of the telescope in the order of the telescope. -/
def selected {D : Type} (telescope : List D) (sel : List Int) : List D :=
  (telescope.zipIdx.filter fun p => decide ((p.2 : Int) ∈ sel)).map Prod.fst

/-- L234-244: loop over the selected DUTs, with the elements of the lists at the same place. -/
def loop {D C : Type} (call : D → Nat → Option C) : List D → Nat → Except Err (List C)
  | [], _ => .ok []
  | d :: ds, i =>
    match call d i with
    | none => .error .index
    | some c =>
      match loop call ds (i + 1) with
      | .error e => .error e
      | .ok cs => .ok (c :: cs)

/-- Call of `check_file`. -/
structure CheckCall (D F : Type) where
  dut : D
  input : String
  output : Option String
  eventRange : Nat
  resolution : Option (F × F)

/-- L236-243. -/
def checkCall {D F : Type} (inputs : List String) (outs : List (Option String)) (ranges : List Nat) (res : List (Option (F × F))) (d : D)
    (i : Nat) : Option (CheckCall D F) :=
  match inputs[i]?, outs[i]?, ranges[i]?, res[i]? with
  | some f, some o, some e, some r => some ⟨d, f, o, e, r⟩
  | _, _, _, _ => none

/-- `check`, L207-246. -/
def check {D F : Type} (telescope : List D) (inputs : List String) (outputs : Option (List String)) (select : Option (List Int))
    (eventRanges : Setting Nat) (resolutions : Setting (Option (F × F))) : Except Err (List (CheckCall D F)) := do
  let sel := selection telescope.length select
  checkSelection telescope.length sel
  checkFiles sel inputs
  let outs ← perFile sel.length outputs
  let ranges ← perDut sel.length eventRanges
  let res ← perDut sel.length resolutions
  loop (checkCall inputs outs ranges res) (selected telescope sel) 0

/-- Call of `mask_pixels`. -/
structure MaskCall (D F M : Type) where
  dut : D
  input : String
  name : String
  output : Option String
  iterations : Option Nat
  threshold : F
  filterSize : Nat
  disable : Option M

/-- L506-516. -/
def maskCall {D F M : Type} (inputs : List String) (outs : List (Option String)) (names : List String) (iterations : List (Option Nat))
    (thresholds : List F) (sizes : List Nat) (disable : List (Option M)) (d : D) (i : Nat) : Option (MaskCall D F M) :=
  match inputs[i]?, outs[i]?, names[i]?, iterations[i]?, thresholds[i]?, sizes[i]?, disable[i]? with
  | some f, some o, some n, some k, some t, some s, some m => some ⟨d, f, n, o, k, t, s, m⟩
  | _, _, _, _, _, _, _ => none

/-- `mask`, L462-518. -/
def mask {D F M : Type} (telescope : List D) (inputs : List String) (outputs : Option (List String)) (select : Option (List Int))
    (names : Setting String) (iterations : Setting (Option Nat)) (thresholds : Setting F) (filterSizes : Setting Nat)
    (disable : Setting (Option M)) : Except Err (List (MaskCall D F M)) := do
  let sel := selection telescope.length select
  checkSelection telescope.length sel
  checkFiles sel inputs
  let outs ← perFile sel.length outputs
  let ns ← perDut sel.length names
  let its ← perDut sel.length iterations
  let ts ← perDut sel.length thresholds
  let fs ← perDut sel.length filterSizes
  let ds ← perDut sel.length disable
  loop (maskCall inputs outs ns its ts fs ds) (selected telescope sel) 0

/-- Parameters of the clusterizer for one DUT. -/
structure ClusterSettings (F : Type) where
  usePositions : Option Bool
  minCharge : Option F
  maxCharge : Option F
  chargeCorrection : Option F
  chargeWeighted : Bool
  columnDistance : F
  rowDistance : F
  frameDistance : F

/-- The parameters as given to `cluster`. -/
structure ClusterArgs (F : Type) where
  usePositions : Setting (Option Bool) := .one none
  minCharge : Setting (Option F) := .one none
  maxCharge : Setting (Option F) := .one none
  chargeCorrection : Setting (Option F) := .one none
  chargeWeighted : Setting Bool := .one false
  columnDistance : Setting F
  rowDistance : Setting F
  frameDistance : Setting F

/-- Call of `cluster_hits`. -/
structure ClusterCall (D F : Type) where
  dut : D
  input : String
  output : Option String
  mask : Option String
  settings : ClusterSettings F

/-- The lists of L719-758. -/
structure ClusterLists (F : Type) where
  usePositions : List (Option Bool)
  minCharge : List (Option F)
  maxCharge : List (Option F)
  chargeCorrection : List (Option F)
  chargeWeighted : List Bool
  columnDistance : List F
  rowDistance : List F
  frameDistance : List F

/-- L719-758. -/
def clusterLists {F : Type} (n : Nat) (a : ClusterArgs F) : Except Err (ClusterLists F) := do
  let p ← perDut n a.usePositions
  let lo ← perDut n a.minCharge
  let hi ← perDut n a.maxCharge
  let c ← perDut n a.chargeCorrection
  let w ← perDut n a.chargeWeighted
  let col ← perDut n a.columnDistance
  let row ← perDut n a.rowDistance
  let fr ← perDut n a.frameDistance
  .ok ⟨p, lo, hi, c, w, col, row, fr⟩

/-- L766-773: the settings at place `i`. -/
def settingsAt {F : Type} (l : ClusterLists F) (i : Nat) : Option (ClusterSettings F) :=
  match l.usePositions[i]?, l.minCharge[i]?, l.maxCharge[i]?, l.chargeCorrection[i]?, l.chargeWeighted[i]?, l.columnDistance[i]?,
    l.rowDistance[i]?, l.frameDistance[i]? with
  | some p, some lo, some hi, some c, some w, some col, some row, some fr => some ⟨p, lo, hi, c, w, col, row, fr⟩
  | _, _, _, _, _, _, _, _ => none

/-- L762-775. -/
def clusterCall {D F : Type} (inputs : List String) (outs masks : List (Option String)) (l : ClusterLists F) (d : D) (i : Nat) :
    Option (ClusterCall D F) :=
  match inputs[i]?, outs[i]?, masks[i]?, settingsAt l i with
  | some f, some o, some m, some s => some ⟨d, f, o, m, s⟩
  | _, _, _, _ => none

/-- `cluster`, L703-777. -/
def cluster {D F : Type} (telescope : List D) (inputs : List String) (masks outputs : Option (List String)) (select : Option (List Int))
    (a : ClusterArgs F) : Except Err (List (ClusterCall D F)) := do
  let sel := selection telescope.length select
  checkSelection telescope.length sel
  checkFiles sel inputs
  let ms ← perFile sel.length masks
  let outs ← perFile sel.length outputs
  let l ← clusterLists sel.length a
  loop (clusterCall inputs outs ms l) (selected telescope sel) 0

end BTA.HitFiles
