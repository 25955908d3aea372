import Verif.Model.AlignDriver
import Verif.Model.KalmanAlign
import Verif.Model.FitTracks
/-
Model of `align_kalman` (beam_telescope_analysis/dut_alignment.py L914-1178) and `_duts_alignment_kalman` (L1321-1666). The loop over the
tracks is `alignmentLoop` of `KalmanAlign`.

`find_tracks` and the fit of a track are arbitrary functions (`Setup`). Simplifications: real numbers; the DUTs have the numbers 0, 1, ...;
exceptions of `find_tracks`, changes of lists given by the caller, arguments of the fit that are passed on (beam energy, mass, scattering
planes), plots and logging are left out; an existing output configuration contains all DUTs.
-/
namespace BTA.KDriver
open BTA.Align (Item)
open BTA.KAlign (Track Fit Record Vec6 Mat6 initialAlignment alignmentLoop hitMask parName)
open BTA.Fit (DutCfg sameTracks effectiveFit actualMinHits)

inductive Err
  /-- the checks which are the same as in `align` -/
  | args (e : Align.Err)
  | maxEvents
  | maxTracks
  /-- ValueError: the output configuration is the input configuration (L1124-1125) -/
  | sameFile
  /-- the configuration file does not exist -/
  | noFile
  /-- KeyError of the telescope -/
  | noDut
  /-- TypeError: `track_chi2[index]` of a number (L1168) -/
  | chi2Number
  /-- IndexError: `track_chi2[index]` -/
  | chi2Index
  | exclude
  | minHits
  /-- ValueError, L1631-1632 -/
  | tooFewHits
  /-- RuntimeError, L1636-1637 -/
  | tooManyHits
  /-- TypeError: `None[...]`, alignment_parameters of the group (L2001-2011) -/
  | parametersNone
  /-- TypeError: `None[...]`, alignment_parameters_errors (L2001-2011) -/
  | errorsNone
  /-- TypeError: `None[0]`, select_telescope_duts (L2016) -/
  | telescopeNone
  /-- exceptions of `_calculate_initial_alignment` and `_alignment_loop` -/
  | loop (e : KAlign.Err)

/-- The arguments of `align_kalman`, L914. -/
structure Args where
  selectDuts : Option (List (Item Nat))
  parameters : Option (List (Option (List (Option (List String)))))
  errors : Option Vec6
  telescopeDuts : Option (List Nat)
  hitDuts : Option (List (Item Nat))
  fitDuts : Option (List (Item Nat))
  exclude : Item Bool
  minHits : Item (Option Nat)
  maxEvents : Item (Option Nat)
  chi2 : Item ℝ
  annealingFactor : ℝ
  annealingTracks : Nat
  maxTracks : Item Nat

/-- The settings of a group of DUTs after the checks. -/
structure Group where
  duts : List Nat
  /-- none: None is given for the group -/
  parameters : Option (List (Option (List String)))
  hit : List Nat
  fit : List Nat
  maxEvents : Option Nat
  maxTracks : Nat

/-! ### Arguments, L1010-1119 -/

/-- L1039-1049: the alignment parameters. Unlike in `align`, the items are not checked. -/
def parametersOf (groups : List (List Nat)) (arg : Option (List (Option (List (Option (List String)))))) :
    Except Err (List (Option (List (Option (List String))))) :=
  match arg with
  | none => .ok (groups.map fun g => some (List.replicate g.length none))
  | some l => if l.length = groups.length ∧ l ≠ [] then .ok l else .error (.args .parameters)

/-- L1107-1117, L1386-1404: one value for all, or a value for each. -/
def forEach {α : Type} (e : Err) (n : Nat) : Item α → Except Err (List α)
  | .one a => .ok (List.replicate n a)
  | .many l => if l.length = n then .ok l else .error e

/-- An exception of a check of `align`. -/
def lift {α : Type} : Except Align.Err α → Except Err α
  | .ok a => .ok a
  | .error e => .error (.args e)

/-- The settings of the groups, one list for each setting. -/
def zipGroups : List (List Nat) → List (Option (List (Option (List String)))) → List (List Nat) → List (List Nat) → List (Option Nat) →
    List Nat → List Group
  | g :: gs, p :: ps, h :: hs, f :: fs, e :: es, t :: ts => ⟨g, p, h, f, e, t⟩ :: zipGroups gs ps hs fs es ts
  | _, _, _, _, _, _ => []

/-- L1010-1117: checks of the arguments. -/
def settings (legacy : Bool) (a : Args) : Except Err (List Group) := do
  let groups ← lift (Align.groupsOf legacy a.selectDuts)                      -- L1012-1031
  let parameters ← parametersOf groups a.parameters                          -- L1038-1049
  let hit ← lift (Align.hitDutsOf groups a.hitDuts)                          -- L1056-1078
  let fit ← lift (Align.fitDutsOf groups hit a.fitDuts)                      -- L1080-1105
  let maxEvents ← forEach .maxEvents groups.length a.maxEvents               -- L1107-1111
  let maxTracks ← forEach .maxTracks groups.length a.maxTracks               -- L1113-1117
  .ok (zipGroups groups parameters hit fit maxEvents maxTracks)

/-- L1119-1125; `root` is `os.path.splitext(...)[0]`. -/
def outputName (root : List Char → List Char) (input : List Char) (output : Option (List Char)) : Except Err (List Char) :=
  match output with
  | some o => if o = input then .error .sameFile else .ok o
  | none =>
    if Align.contains "prealigned".toList input then .ok (Align.replaceFrom "prealigned".toList "aligned_kalman".toList 0 input)
    else .ok (root input ++ "_aligned_kalman.yaml".toList)

/-! ### Alignment -/

/-- Alignments of all DUTs. -/
abbrev Conf (n : Nat) := Fin n → Dut.Alignment

/-- What does not depend on the alignment. -/
structure Setup (n : Nat) (T : Type) where
  /-- the track candidates that `find_tracks` writes for a group (L1146-1152); the number of the group for the random selection of
  events -/
  candidates : Nat → Option Nat → List (Track n T)
  /-- the fit of a track with hits of the given DUTs (L1534) -/
  fit : List Nat → Conf n → (Fin n → ℝ) → Track n T → Option (Fit n)
  /-- 10000, L1473 -/
  chunkSize : Nat

structure World (n : Nat) where
  /-- the output configuration -/
  conf : Conf n
  /-- the lines of the output tables -/
  table : List (Record n)
  /-- numbers of the files with track candidates that exist -/
  files : List Nat
  /-- calls of `find_tracks`: number of the group, maximum number of events -/
  calls : List (Nat × Option Nat)

/-- L2001-2011: one of the errors is used. -/
def needsErrors (n : Nat) (duts : List Nat) (parameters : List (Option (List String))) : Bool :=
  duts.any fun d => decide (d < n) &&
    match parameters[d]? with
    | some (some names) => (List.finRange 6).any fun k => decide (parName k ∈ names)
    | _ => false

/-- L2001-2011: the errors if they are used. -/
def errorsOf (n : Nat) (a : Args) (duts : List Nat) (parameters : List (Option (List String))) : Except Err Vec6 :=
  match a.errors with
  | some e => .ok e
  | none => if needsErrors n duts parameters then .error .errorsNone else .ok 0

/-- L1646: `_calculate_initial_alignment` with the arguments of the group. Simplification: which exception is raised first. -/
noncomputable def initial {n : Nat} (a : Args) (g : Group) : Except Err (Fin n → Mat6) :=
  match g.parameters with
  | none => .error .parametersNone
  | some p =>
    match errorsOf n a g.duts p with
    | .error e => .error e
    | .ok errors =>
      match a.telescopeDuts with
      | none => .error .telescopeNone
      | some tel =>
        match initialAlignment g.duts tel p errors with
        | .error e => .error (.loop e)
        | .ok cov => .ok cov

/-- The settings of the alignment loop. -/
noncomputable def loopConfig {n : Nat} {T : Type} (S : Setup n T) (a : Args) (g : Group) (chi2 : ℝ) (c : DutCfg) (conf : Conf n) :
    KAlign.Config n T where
  rot0 d := KAlign.initialRotation (conf d)
  pos0 d := KAlign.initialPosition (conf d)
  fit := S.fit (effectiveFit c)                                              -- L1625
  chi2Cut := chi2
  annealingFactor := a.annealingFactor
  annealingTracks := a.annealingTracks
  maxTracks := g.maxTracks
  hitMask := hitMask c.hitDuts                                               -- L1617-1620

/-- L1615-1648: the alignment with the tracks for DUT `c`. -/
noncomputable def pass {n : Nat} {T : Type} (S : Setup n T) (a : Args) (index : Nat) (g : Group) (chi2 : ℝ) (c : DutCfg) (w : World n) :
    World n × Option Err :=
  if actualMinHits c < 2 then (w, some .tooFewHits)                          -- L1631-1632
  else if actualMinHits c > (effectiveFit c).length then (w, some .tooManyHits)       -- L1636-1637
  else
    match initial a g with
    | .error e => (w, some e)
    | .ok cov =>
      let out := alignmentLoop (loopConfig S a g chi2 c w.conf) S.chunkSize w.conf cov (S.candidates index g.maxEvents)
      ({ w with conf := out.saved, table := w.table ++ out.table }, out.err.map .loop)

/-- L1596-1650: loop over the DUTs of the group; `fitted` is `fitted_duts`. -/
noncomputable def passes {n : Nat} {T : Type} (S : Setup n T) (a : Args) (index : Nat) (g : Group) (chi2 : ℝ) (all : List DutCfg) :
    List DutCfg → List Nat → World n → World n × Option Err
  | [], _, w => (w, none)
  | c :: rest, fitted, w =>
    if c.dut ∈ fitted then passes S a index g chi2 all rest fitted w         -- L1601-1602
    else
      match pass S a index g chi2 c w with
      | (w', some e) => (w', some e)
      | (w', none) =>
        passes S a index g chi2 all rest (fitted ++ (all.filter fun x => sameTracks x c).map DutCfg.dut) w'       -- L1604-1613, L1650

/-- The settings of the DUTs of a group (L1326-1404): the DUTs for the fit and the DUTs with a required hit are the same. -/
def dutCfgs (g : Group) (exclude : List Bool) (minHits : List (Option Nat)) : List DutCfg :=
  (g.duts.zip (exclude.zip minHits)).map fun q => ⟨q.1, g.fit, g.hit, q.2.1, q.2.2⟩

/-- `_duts_alignment_kalman`, L1321-1666. -/
noncomputable def alignDuts {n : Nat} {T : Type} (S : Setup n T) (a : Args) (index : Nat) (g : Group) (chi2 : ℝ) (w : World n) :
    World n × Option Err :=
  match forEach .exclude g.duts.length a.exclude with                        -- L1386-1396
  | .error e => (w, some e)
  | .ok exclude =>
    match forEach .minHits g.duts.length a.minHits with                      -- L1398-1403
    | .error e => (w, some e)
    | .ok minHits =>
      let w := if index = 0 then { w with table := [] } else w               -- L1591-1593
      match passes S a index g chi2 (dutCfgs g exclude minHits) (dutCfgs g exclude minHits) [] w with
      | (w', some e) => (w', some e)
      | (w', none) => ({ w' with files := w'.files.filter fun i => i ≠ index }, none)      -- L1666

/-- `track_chi2[index]`, L1168. -/
def chi2Of (a : Args) (index : Nat) : Except Err ℝ :=
  match a.chi2 with
  | .one _ => .error .chi2Number
  | .many l =>
    match l[index]? with
    | none => .error .chi2Index
    | some c => .ok c

/-- L1142-1176: one group. -/
noncomputable def alignGroup {n : Nat} {T : Type} (S : Setup n T) (a : Args) (index : Nat) (g : Group) (w : World n) :
    World n × Option Err :=
  let w := { w with files := index :: w.files, calls := w.calls ++ [(index, g.maxEvents)] }      -- L1146-1152
  if (g.duts ++ g.hit).any fun d => decide (n ≤ d) then (w, some .noDut)     -- L1154, L1621
  else
    match chi2Of a index with
    | .error e => (w, some e)
    | .ok chi2 => alignDuts S a index g chi2 w                               -- L1155-1176

/-- L1142-1176: loop over the groups. -/
noncomputable def alignGroups {n : Nat} {T : Type} (S : Setup n T) (a : Args) : Nat → List Group → World n → World n × Option Err
  | _, [], w => (w, none)
  | index, g :: gs, w =>
    match alignGroup S a index g w with
    | (w', some e) => (w', some e)
    | (w', none) => alignGroups S a (index + 1) gs w'

/-- L1126-1136: the output configuration before the alignment; in an existing file only the DUTs that will be aligned are replaced. -/
def startConf {n : Nat} (input : Conf n) (existing : Option (Conf n)) (gs : List Group) : Conf n :=
  match existing with
  | none => input
  | some old => fun d => if gs.any fun g => decide (d.val ∈ g.duts) then input d else old d

/-- The files: telescope configurations by name, the lines of the output alignment file, numbers of the files with track candidates. -/
structure Disk (n : Nat) where
  store : List Char → Option (Conf n)
  table : List (Record n)
  files : List Nat

/-- Result of a call: the files afterwards, the calls of `find_tracks`, the name that is returned or an exception. -/
structure Result (n : Nat) where
  disk : Disk n
  calls : List (Nat × Option Nat)
  output : Except Err (List Char)

/-- The result after the alignment of the groups. -/
def finish {n : Nat} (D : Disk n) (out : List Char) (r : World n × Option Err) : Result n where
  disk := ⟨fun f => if f = out then some r.1.conf else D.store f, r.1.table, r.1.files⟩
  calls := r.1.calls
  output := match r.2 with
    | none => .ok out
    | some e => .error e

/-- `align_kalman`, L914-1178. `legacy`: numpy before 1.24; `root` is `os.path.splitext(...)[0]`. -/
noncomputable def alignKalman {n : Nat} {T : Type} (legacy : Bool) (root : List Char → List Char) (S : Setup n T) (a : Args) (D : Disk n)
    (input : List Char) (output : Option (List Char)) : Result n :=
  match D.store input with
  | none => ⟨D, [], .error .noFile⟩
  | some conf =>
    match settings legacy a with
    | .error e => ⟨D, [], .error e⟩
    | .ok gs =>
      match outputName root input output with
      | .error e => ⟨D, [], .error e⟩
      | .ok out =>
        if (D.store out).isSome && gs.any fun g => g.duts.any fun d => decide (n ≤ d) then ⟨D, [], .error .noDut⟩       -- L1133
        else finish D out (alignGroups S a 0 gs ⟨startConf conf (D.store out) gs, D.table, D.files, []⟩)

end BTA.KDriver
