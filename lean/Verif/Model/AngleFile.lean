import Verif.Model.TrackAngle
import Verif.Model.HistStat
import Verif.Model.Kalman
import Verif.Model.ChunkReader
import Verif.Model.GaussFit
/-
Model of `histogram_track_angle` (beam_telescope_analysis/result_analysis.py L2308-2538): the loop over the DUTs and the nodes of the output file,
and of its plots, `plot_track_angle` (beam_telescope_analysis/tools/plot_utils.py L2517-2574). The angles of a track are in TrackAngle.lean, one
histogram is `angleHist` of HistStat.lean.

Simplifications: real numbers, NaN is `none`. `np.argsort` and the Gaussian fit of a histogram (L2516-2526; `none` if both attempts fail) are arbitrary
functions. `n_bins="auto"` is not modelled. Titles of nodes and the drawing are left out. `select_duts` is a list.
After an exception in the loop the file of the model has the nodes of the completed DUTs only (the code may have created some nodes of the next one).
-/
namespace BTA.AngleFile
open BTA.Geo BTA.HistStat BTA.Angle

/-- The angles that are histogrammed. -/
inductive Kind
  | globalTotal
  | globalAlpha
  | globalBeta
  | localTotal
  | localAlpha
  | localBeta
deriving DecidableEq

/-- L2431-2466: histograms for the telescope and for a DUT. -/
def globals : List Kind := [.globalTotal, .globalAlpha, .globalBeta]

/-- L2467-2503: histograms for a DUT only. -/
def locals : List Kind := [.localTotal, .localAlpha, .localBeta]

/-- A row of a track table: event number and slope in local coordinates. -/
structure Row where
  event : Int
  slope : Option Vec3

/-- Position and rotation of a DUT. -/
def place (P : Kalman.Plane) : Dut.Alignment := ⟨P.pos 0, P.pos 1, P.pos 2, P.alpha, P.beta, P.gamma⟩

/-- L2370-2399: one of the angles of a track. -/
noncomputable def angleOf (a : Dut.Alignment) (k : Kind) (r : Row) : Option ℝ :=
  match r.slope with
  | none => none
  | some s =>
    match k with
    | .globalTotal => (trackAngles (globalSlope a s)).total
    | .globalAlpha => (trackAngles (globalSlope a s)).alpha
    | .globalBeta => (trackAngles (globalSlope a s)).beta
    | .localTotal => (trackAngles s).total
    | .localAlpha => (trackAngles s).alpha
    | .localBeta => (trackAngles s).beta

/-- A histogram and its edges. -/
structure Hist where
  counts : List Nat
  edges : List ℝ

/-- Amplitude, mean and sigma of the Gaussian fit; NaN if the fit failed. -/
abbrev Curve := Option (ℝ × ℝ × ℝ)

/-- The nodes `<kind>_track_angle_hist<label>` and `<kind>_track_angle_edges<label>`. -/
structure Stored where
  hist : Hist
  curve : Curve

/-- The label is `none` for the telescope. -/
abbrev Name := Kind × Option Nat

abbrev File := List (Name × Stored)

inductive Err
  /-- RuntimeError: a DUT is parallel to the z axis (L2342) -/
  | parallel
  /-- IndexError (L2361) -/
  | empty
  /-- NoSuchNodeError (L2363) -/
  | noTable
  | read (e : ReadErr)
  /-- ValueError of `np.histogram` -/
  | value
  /-- UnboundLocalError (L2434) -/
  | unbound
  /-- NodeError of `create_carray` -/
  | nodeExists

structure Input where
  planes : List Kalman.Plane
  argsort : List ℝ → List Nat
  /-- the tables `Tracks_DUT<d>` -/
  tables : Nat → Option (List Row)
  nBins : Nat
  chunkSize : Nat
  fit : Hist → Curve

/-- L2354: the selected DUTs in the order of the z positions. A DUT that is selected several times is repeated, other numbers have no effect. -/
def selected (order : List Nat) (select : List Int) : List Nat := order.flatMap fun d : Nat => List.replicate (select.count (d : Int)) d

/-- The variables with the histograms; `none` if they have no value. They keep their values in the loop over the DUTs. -/
abbrev Vars := Kind → Option Hist

/-- L2387-2427 for the given angles and all chunks. -/
noncomputable def fillHists (inp : Input) (a : Dut.Alignment) (chunks : List (List Row)) : List Kind → Vars → Except Err Vars
  | [], vars => .ok vars
  | k :: ks, vars =>
    match angleHist inp.nBins (chunks.map fun c => c.map (angleOf a k)) with
    | .error _ => .error .value
    | .ok (counts, edges) => fillHists inp a chunks ks (Function.update vars k (some ⟨counts, edges⟩))

/-- L2363-2427: read the track table of a DUT. -/
noncomputable def readTable (inp : Input) (d : Nat) (kinds : List Kind) (vars : Vars) : Except Err Vars :=
  match inp.tables d, inp.planes[d]? with
  | some rows, some P =>
    let g := dataAligned Row.event rows { chunkSize := inp.chunkSize }
    match g.items.map Prod.fst with
    | [] =>
      match g.err with
      | some e => .error (.read e)
      | none => .ok vars
    | c :: cs =>
      match fillHists inp (place P) (c :: cs) kinds vars with
      | .error e => .error e
      | .ok vars' =>
        match g.err with
        | some e => .error (.read e)
        | none => .ok vars'
  | _, _ => .error .noTable

/-- L2430-2533: create the nodes and store the histograms and their fits. -/
noncomputable def create (inp : Input) (vars : Vars) (label : Option Nat) : List Kind → File → Except Err File
  | [], file => .ok file
  | k :: ks, file =>
    match vars k with
    | none => .error .unbound
    | some h =>
      if (k, label) ∈ file.map Prod.fst then .error .nodeExists
      else create inp vars label ks (file ++ [((k, label), { hist := h, curve := inp.fit h })])

/-- An element of the loop: the telescope (L2365, `index == 0`) or a DUT. -/
structure Item where
  telescope : Bool
  dut : Nat

def Item.kinds (i : Item) : List Kind := if i.telescope then globals else globals ++ locals

def Item.label (i : Item) : Option Nat := if i.telescope then none else some i.dut

/-- L2362-2533: loop over the DUTs. -/
noncomputable def loop (inp : Input) : List Item → Vars → File → File × Option Err
  | [], _, file => (file, none)
  | i :: is, vars, file =>
    match readTable inp i.dut i.kinds vars with
    | .error e => (file, some e)
    | .ok vars' =>
      match create inp vars' i.label i.kinds file with
      | .error e => (file, some e)
      | .ok file' => loop inp is vars' file'

/-- The output file (`none`: there is none) and the exception. -/
structure Out where
  file : Option File
  err : Option Err

/-- `histogram_track_angle` without plots, L2308-2538. `old` is the output file before. -/
noncomputable def histogramTrackAngle (inp : Input) (select : List Int) (old : Option File) : Out :=
  match Kalman.zIntersections inp.planes with
  | none => { file := old, err := some .parallel }
  | some z =>
    match selected (inp.argsort z) select with
    | [] => { file := some [], err := some .empty }
    | d :: ds =>
      let r := loop inp (⟨true, d⟩ :: (d :: ds).map fun d => ⟨false, d⟩) (fun _ => none) []
      { file := some r.1, err := r.2 }

/-! ### Plots -/

inductive PlotErr
  /-- IndexError of `dut_names[actual_dut_index]`, L2545 -/
  | index
  /-- NoSuchNodeError, L2553 -/
  | noNode

/-- A page: bars and curve, angles in mrad. -/
structure Page where
  name : Name
  centres : List ℝ
  widths : List ℝ
  counts : List Nat
  curve : Curve

/-- `edges[1:] - edges[:-1]`, L2564. -/
noncomputable def widths : List ℝ → List ℝ
  | a :: b :: es => (b - a) :: widths (b :: es)
  | _ => []

/-- L2553-2574. -/
noncomputable def page (file : File) (name : Name) : Except PlotErr Page :=
  match file.lookup name with
  | none => .error .noNode
  | some st =>
    let edges := st.hist.edges.map fun x => x * 1000
    .ok { name := name, centres := centres edges, widths := widths edges, counts := st.hist.counts,
          curve := st.curve.map fun c => (c.1, c.2.1 * 1000, c.2.2 * 1000) }

/-- L2550-2574: loop over the angles. -/
noncomputable def pages (file : File) : List Name → Except PlotErr (List Page)
  | [] => .ok []
  | name :: names =>
    match page file name with
    | .error e => .error e
    | .ok p =>
      match pages file names with
      | .error e => .error e
      | .ok ps => .ok (p :: ps)

/-- L2542-2574: loop over the selected DUTs. A negative number has a name (Python's indexing) but no node. -/
noncomputable def plotDuts (nDuts : Nat) (file : File) : List Int → Except PlotErr (List Page)
  | [] => .ok []
  | i :: is =>
    if i < -(nDuts : Int) ∨ (nDuts : Int) ≤ i then .error .index
    else if i < 0 then .error .noNode
    else
      match pages file ((globals ++ locals).map fun k => (k, some i.toNat)) with
      | .error e => .error e
      | .ok ps =>
        match plotDuts nDuts file is with
        | .error e => .error e
        | .ok qs => .ok (ps ++ qs)

/-- `plot_track_angle`, plot_utils.py L2517-2574: the telescope and the selected DUTs in the order of the selection. -/
noncomputable def plotTrackAngle (nDuts : Nat) (select : List Int) (file : File) : Except PlotErr (List Page) :=
  match pages file (globals.map fun k => (k, none)) with
  | .error e => .error e
  | .ok ps =>
    match plotDuts nDuts file select with
    | .error e => .error e
    | .ok qs => .ok (ps ++ qs)

end BTA.AngleFile
