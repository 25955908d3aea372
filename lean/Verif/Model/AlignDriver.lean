import Verif.Model.AlignTelescope
import Verif.Model.Transformation
import Verif.Model.DataSelection
import Mathlib.Algebra.Order.Round
/-
Model of `align` (beam_telescope_analysis/dut_alignment.py L528-911) and `_duts_alignment` (L1181-1318).

The telescope configuration that is written is the state. `align_telescope` and `calculate_transformation` are the models of
`AlignTelescope` and `Transformation`. `find_tracks`, `fit_tracks`, `select_tracks`, `histogram_track_angle` and `calculate_residuals`
write files: the calls are recorded with their arguments, the file exists afterwards, and the contents of the track table and of the angle
histograms are arbitrary functions of the recorded calls (`Oracle`).

Simplifications: real numbers; arguments that are neither None, nor numbers, nor lists (of lists) of numbers are left out, so are pairs of
distances with a wrong length; the DUTs have the numbers 0, 1, ...; `list(set(a) & set(b))` has the order of `a`; changes of lists given
by the caller; logging.
-/
namespace BTA.Align
open BTA.Dut BTA.Transformation

inductive Err
  /-- TypeError of `np.hstack`: select_duts is None (L645) -/
  | notSequence
  /-- ValueError of `np.hstack`: select_duts is empty (L645) -/
  | nothing
  /-- ValueError of `np.array`: the items have different lengths (L645), numpy 1.24 and later -/
  | inhomogeneous
  | selectDuts
  | parameters
  | hitDuts
  | fitDuts
  | chi2
  | shapes
  | quality
  | isolation
  | iterations
  | events
  /-- ValueError: the output configuration is the input configuration (L851-852) -/
  | sameFile
  /-- the configuration file does not exist -/
  | noFile
  /-- KeyError of the telescope -/
  | noDut
  /-- TypeError: `set(None)`, select_telescope_duts is None (L1189) -/
  | telescopeDuts
  /-- TypeError: an item of quality_distances is None (L1202-1206) -/
  | qualityNone
  /-- FileNotFoundError of `os.remove` -/
  | missingFile
  | telescope (e : AlignTel.Err)
  | transformation (e : Transformation.Err)
deriving DecidableEq

/-! ### Arguments, L643-845 -/

/-- An item of a list: not iterable or iterable. -/
inductive Item (α : Type)
  | one (a : α)
  | many (l : List α)

/-- `all(map(lambda val: not isinstance(val, Iterable), ...))`: the items if all are not iterable. -/
def allOne {α : Type} : List (Item α) → Option (List α)
  | [] => some []
  | .one a :: r => (allOne r).map (a :: ·)
  | .many _ :: _ => none

/-- `all(map(lambda val: isinstance(val, Iterable), ...))`: the items if all are iterable. -/
def allMany {α : Type} : List (Item α) → Option (List (List α))
  | [] => some []
  | .one _ :: _ => none
  | .many l :: r => (allMany r).map (l :: ·)

/-- Lists of the same length. -/
def sameLength {α : Type} (ls : List (List α)) : Bool := ls.all fun l => decide (l.length = (ls.headD []).length)

/-- `np.array` makes no array of objects. -/
def rectangular {α : Type} (items : List (Item α)) : Bool :=
  match allOne items, allMany items with
  | some _, _ => true
  | none, some ls => sameLength ls
  | none, none => false

/-- L645-664: the groups of DUTs. `legacy`: numpy before 1.24, which accepts lists of different lengths. -/
def groupsOf (legacy : Bool) (select : Option (List (Item Nat))) : Except Err (List (List Nat)) :=
  match select with
  | none => .error .notSequence
  | some [] => .error .nothing
  | some items =>
    if !legacy && !rectangular items then .error .inhomogeneous
    else
      match allOne items, allMany items with
      | some duts, _ => .ok [duts]
      | none, none => .error .selectDuts
      | none, some ls => if ls.any List.isEmpty then .error .selectDuts else .ok ls

/-- L697-711, L725-739: one list for all groups, or a list for each group. -/
def perGroup (e : Err) (n : Nat) (items : List (Item Nat)) : Except Err (List (List Nat)) :=
  match items with
  | [] => .error e
  | _ =>
    match allOne items, allMany items with
    | some l, _ => .ok (List.replicate n l)
    | none, none => .error e
    | none, some ls => if ls.length = n then .ok ls else .error e

/-- L675-689: the alignment parameters. -/
def parametersOf (groups : List (List Nat)) (arg : Option (List (Option (List (Option (List String)))))) :
    Except Err (List (List (Option (List String)))) :=
  match arg with
  | none => .ok (groups.map fun g => List.replicate g.length none)
  | some [] => .error .parameters
  | some l =>
    if l.length ≠ groups.length then .error .parameters
    else
      let full := List.zipWith (fun (p : Option (List (Option (List String)))) (g : List Nat) => p.getD (List.replicate g.length none)) l groups
      if (full.zip groups).all fun q => decide (q.1.length = q.2.length) then .ok full else .error .parameters

/-- L691-711, L716-739: the default value if the argument is None. -/
def givenOr (e : Err) (n : Nat) (default : List (List Nat)) (arg : Option (List (Item Nat))) : Except Err (List (List Nat)) :=
  match arg with
  | none => .ok default
  | some items => perGroup e n items

/-- L691-714: the DUTs that must have a hit. -/
def hitDutsOf (groups : List (List Nat)) (arg : Option (List (Item Nat))) : Except Err (List (List Nat)) :=
  match givenOr .hitDuts groups.length groups arg with
  | .error e => .error e
  | .ok ls => if ls.any fun l => decide (l.length < 2) then .error .hitDuts else .ok ls

/-- L716-743: the DUTs of the track fit. -/
def fitDutsOf (groups hit : List (List Nat)) (arg : Option (List (Item Nat))) : Except Err (List (List Nat)) :=
  match givenOr .fitDuts groups.length hit arg with
  | .error e => .error e
  | .ok ls =>
    if (ls.zip hit).any fun q => decide (q.1.length < 2) || q.1.any fun d => decide (d ∉ q.2) then .error .fitDuts else .ok ls

/-- The argument `track_chi2`: a value, or a list with a value or a list for each group. -/
inductive Chi2
  | one (c : Option ℝ)
  | many (l : List (Item (Option ℝ)))

/-- L751-755 -/
def expandChi2 (c : Item (Option ℝ)) (g : List Nat) : List (Option ℝ) :=
  match c with
  | .one c => List.replicate g.length c
  | .many l => l

/-- L748-762: the limits of chi2, one item for each group. -/
def checkChi2 (groups : List (List Nat)) (l : List (Item (Option ℝ))) : Except Err (List (List (Option ℝ))) :=
  if l.length ≠ groups.length then .error .chi2
  else
    let full := List.zipWith expandChi2 l groups
    if (full.zip groups).all fun q => decide (q.1.length = q.2.length) then .ok full else .error .chi2

/-- L745-762: the limits of chi2. -/
def chi2Of (groups : List (List Nat)) (arg : Chi2) : Except Err (List (List (Option ℝ))) :=
  match arg with
  | .one c => checkChi2 groups (List.replicate groups.length (.one c))
  | .many l => checkChi2 groups l

/-- An item of the cluster shapes of a group: None, a number, or the shapes of a DUT. -/
inductive Shape
  | none
  | num (n : Nat)
  | list (l : List Nat)

/-- An item of `cluster_shapes`: None, a number, or the shapes of a group. -/
inductive ShapeArg
  | none
  | num (n : Nat)
  | list (l : List Shape)

/-- L768: the numbers if all items are numbers. -/
def argNumbers : List ShapeArg → Option (List Nat)
  | [] => some []
  | .num n :: r => (argNumbers r).map (n :: ·)
  | _ => Option.none

/-- L783: the numbers if all items are numbers. -/
def numbers : List Shape → Option (List Nat)
  | [] => some []
  | .num n :: r => (numbers r).map (n :: ·)
  | _ => Option.none

/-- L793: the shapes of the DUTs if each item is a list or None. -/
def shapeLists : List Shape → Option (List (Option (List Nat)))
  | [] => some []
  | .none :: r => (shapeLists r).map (Option.none :: ·)
  | .list l :: r => (shapeLists r).map (some l :: ·)
  | .num _ :: _ => Option.none

/-- L778-796: the shapes of the DUTs of a group. -/
def groupShapes (a : ShapeArg) (g : List Nat) : Option (List (Option (List Nat))) :=
  match a with
  | .num _ => Option.none
  | .none => some (List.replicate g.length Option.none)
  | .list l =>
    match numbers l with
    | some ns => some (List.replicate g.length (some ns))
    | Option.none =>
      match shapeLists l with
      | Option.none => Option.none
      | some s => if s.length = g.length then some s else Option.none

/-- All values or none. -/
def sequence {α : Type} : List (Option α) → Option (List α)
  | [] => some []
  | Option.none :: _ => Option.none
  | some a :: r => (sequence r).map (a :: ·)

/-- L774-796: the cluster shapes, one item for each group. -/
def checkShapes (groups : List (List Nat)) (l : List ShapeArg) : Except Err (List (List (Option (List Nat)))) :=
  if l.length ≠ groups.length then .error .shapes
  else
    match sequence (List.zipWith groupShapes l groups) with
    | Option.none => .error .shapes
    | some s => .ok s

/-- L764-796: the cluster shapes. -/
def shapesOf (groups : List (List Nat)) (arg : Option (List ShapeArg)) : Except Err (List (List (Option (List Nat)))) :=
  match arg with
  | Option.none => checkShapes groups (List.replicate groups.length ShapeArg.none)
  | some l =>
    match argNumbers l with
    | some ns => checkShapes groups (List.replicate groups.length (.list (ns.map .num)))
    | Option.none => checkShapes groups l

/-- The arguments `quality_distances` and `isolation_distances`: a pair or None for all DUTs, or a list. -/
inductive Distances
  | same (d : Option (ℝ × ℝ))
  | each (l : List (Option (ℝ × ℝ)))

/-- L798-835 -/
def distancesOf (e : Err) (nDuts : Nat) (arg : Distances) : Except Err (List (Option (ℝ × ℝ))) :=
  let l := match arg with
    | .same d => List.replicate nDuts d
    | .each l => l
  if l.length = 0 ∨ l.length ≠ nDuts then .error e else .ok l

/-- L837-846: a value for all groups or a list. -/
def eachGroup {α : Type} (e : Err) (n : Nat) (arg : Item α) : Except Err (List α) :=
  match arg with
  | .one a => .ok (List.replicate n a)
  | .many l => if l.length = n then .ok l else .error e

/-- The arguments. -/
structure Args where
  selectDuts : Option (List (Item Nat)) := none
  parameters : Option (List (Option (List (Option (List String))))) := none
  telescopeDuts : Option (List Nat) := none
  hitDuts : Option (List (Item Nat)) := none
  fitDuts : Option (List (Item Nat)) := none
  iterations : Item Nat := .one 3
  maxEvents : Item (Option Nat) := .one none
  chi2 : Chi2 := .one (some 10)
  shapes : Option (List ShapeArg) := none
  quality : Distances := .same (some (250, 250))
  isolation : Distances := .same (some (500, 500))
  useLimits : Bool := true
  plot : Bool := true
  chunkSize : Nat := 1000000

/-- The settings of a group (L883-904). -/
structure Group where
  duts : List Nat
  parameters : List (Option (List String))
  hitDuts : List Nat
  fitDuts : List Nat
  iterations : Nat
  maxEvents : Option Nat
  chi2 : List (Option ℝ)
  shapes : List (Option (List Nat))

/-- The settings of all groups: item `index` of each list (L871-904). -/
def zipGroups : List (List Nat) → List (List (Option (List String))) → List (List Nat) → List (List Nat) → List Nat → List (Option Nat) →
    List (List (Option ℝ)) → List (List (Option (List Nat))) → List Group
  | d :: ds, p :: ps, h :: hs, f :: fs, i :: is, m :: ms, c :: cs, s :: ss => ⟨d, p, h, f, i, m, c, s⟩ :: zipGroups ds ps hs fs is ms cs ss
  | _, _, _, _, _, _, _, _ => []

/-- L643-845: all checks of the arguments; the groups and the quality distances. -/
def settings (legacy : Bool) (nDuts : Nat) (a : Args) : Except Err (List Group × List (Option (ℝ × ℝ))) := do
  let groups ← groupsOf legacy a.selectDuts
  let parameters ← parametersOf groups a.parameters
  let hit ← hitDutsOf groups a.hitDuts
  let fit ← fitDutsOf groups hit a.fitDuts
  let chi2 ← chi2Of groups a.chi2
  let shapes ← shapesOf groups a.shapes
  let quality ← distancesOf .quality nDuts a.quality
  let _ ← distancesOf .isolation nDuts a.isolation
  let iterations ← eachGroup .iterations groups.length a.iterations
  let maxEvents ← eachGroup .events groups.length a.maxEvents
  .ok (zipGroups groups parameters hit fit iterations maxEvents chi2 shapes, quality)

/-! ### Name of the output file, L847-852 -/

/-- `s.replace(old, new)` with a non-empty `old`; `skip` characters belong to the last occurrence. -/
def replaceFrom (old new : List Char) : Nat → List Char → List Char
  | _, [] => []
  | skip + 1, _ :: r => replaceFrom old new skip r
  | 0, c :: r => if old.isPrefixOf (c :: r) then new ++ replaceFrom old new (old.length - 1) r else c :: replaceFrom old new 0 r

/-- `old in s` -/
def contains (old : List Char) : List Char → Bool
  | [] => old.isEmpty
  | c :: r => old.isPrefixOf (c :: r) || contains old r

/-- L847-852; `root` is `os.path.splitext(...)[0]`. -/
def outputName (root : List Char → List Char) (input : List Char) (output : Option (List Char)) : Except Err (List Char) :=
  match output with
  | some o => if o = input then .error .sameFile else .ok o
  | none =>
    if contains "prealigned".toList input then .ok (replaceFrom "prealigned".toList "aligned".toList 0 input)
    else .ok (root input ++ "_aligned.yaml".toList)

/-! ### State -/

/-- A telescope configuration. -/
structure Conf where
  alpha : ℝ
  beta : ℝ
  /-- number of DUTs -/
  n : Nat
  duts : Nat → DutConf

/-- The temporary files. The names contain the DUTs of the group and the iteration. -/
inductive Tmp
  | prealigned
  | candidates (duts : List Nat) (step : Nat)
  | tracks (duts : List Nat) (step : Nat)
  | selected (duts : List Nat) (step : Nat)
  | angles (duts : List Nat) (step : Nat)
  | residuals (duts : List Nat) (step : Nat)
deriving DecidableEq

/-- The conditions in a query string: limit of the reduced chi2 and cluster shapes (no condition if empty). -/
structure Query where
  chi2 : Option ℝ
  shapes : List Nat

/-- The calls that write files, with their arguments. `conf` is the configuration file at this time. -/
inductive Call
  | findTracks (conf : Conf) (output : Tmp) (maxEvents : Option Nat)
  | fitTracks (conf : Conf) (input output : Tmp) (maxEvents : Option Nat) (duts fitDuts : List Nat) (hitDuts : List (List Nat))
      (quality : List (Option (ℝ × ℝ))) (useLimits : Bool)
  | selectTracks (conf : Conf) (input output : Tmp) (duts : List Nat) (hitDuts : List (List Nat)) (query : List Query)
  | trackAngles (conf : Conf) (input output : Tmp) (duts : List Nat)
  | residuals (conf : Conf) (input output : Tmp) (duts : List Nat)

/-- The output configuration file, the temporary files and the calls made so far (last one first). -/
structure World where
  conf : Conf
  files : List Tmp
  calls : List Call

/-- What the called functions find in the data; all depends on the calls. -/
structure Oracle where
  /-- track table of each DUT in the last file of selected tracks -/
  tables : List Call → Nat → List Row
  /-- means of the Gaussian fits to the alpha and beta histograms; none if one is NaN -/
  angles : List Call → Option (ℝ × ℝ)
  /-- numpy -/
  np : Numpy
  svd : List Geo.Vec3 → Geo.Vec3
  /-- bound of the number of attempts to find chunks -/
  fuel : Nat

/-- A function that writes the file `f` has been called. -/
def World.call (w : World) (c : Call) (f : Tmp) : World := ⟨w.conf, f :: w.files.filter (· ≠ f), c :: w.calls⟩

/-- `os.remove` -/
def World.remove (w : World) (f : Tmp) : Except Err World :=
  if f ∈ w.files then .ok { w with files := w.files.filter (· ≠ f) } else .error .missingFile

/-! ### One group, `_duts_alignment` -/

/-- L1189, L1192, L1271: the DUTs of `a` that are in `b`. -/
def common (a b : List Nat) : List Nat := a.dedup.filter fun d => decide (d ∈ b)

/-- The configuration as telescope of `align_telescope`. -/
def toTel (c : Conf) : AlignTel.Tel := ⟨c.alpha, c.beta, (List.range c.n).map fun i => (c.duts i).alignment⟩

/-- The configuration saved by `align_telescope`. -/
def ofTel (c : Conf) (t : AlignTel.Tel) : Conf :=
  ⟨t.alpha, t.beta, c.n, fun i => { c.duts i with alignment := t.duts.getD i (c.duts i).alignment }⟩

/-- L1188-1192: the telescope is aligned to the z axis. -/
noncomputable def toBeam (o : Oracle) (tel : List Nat) (g : Group) (w : World) : Except Err World :=
  match common g.duts tel with
  | [] => .ok w
  | d :: ds =>
    match AlignTel.alignTelescope o.svd (toTel w.conf) (d :: ds) none with
    | .error e => .error (.telescope e)
    | .ok t => .ok { w with conf := ofTel w.conf t }

/-- L1196: for each DUT, the DUTs that must have a hit. -/
def requiredHits (g : Group) : List (List Nat) := g.duts.map fun d => (g.hitDuts ++ [d]).dedup

/-- L1198-1207: the widened distances are not used, but the items are read. -/
def readQuality (quality : List (Option (ℝ × ℝ))) (w : World) : Except Err World :=
  if quality.all Option.isSome then .ok w else .error .qualityNone

/-- L1213-1215 and L1316-1318: the last file of track candidates, made in step `step`, is removed. -/
def removeCandidates (g : Group) (step : Nat) (w : World) : Except Err World :=
  if step = 0 then .ok w else w.remove (.candidates g.duts step)

/-- L1209-1223: new track candidates, but not in the first iteration. -/
def findCandidates (g : Group) (step : Nat) (w : World) : Except Err World :=
  if step = 0 then .ok w
  else
    match removeCandidates g (step - 1) w with
    | .error e => .error e
    | .ok w => .ok (w.call (.findTracks w.conf (.candidates g.duts step) g.maxEvents) (.candidates g.duts step))

/-- L1228-1246: the tracks are fitted. -/
def fitStep (useLimits : Bool) (quality : List (Option (ℝ × ℝ))) (g : Group) (step : Nat) (w : World) : World :=
  w.call (.fitTracks w.conf (if step = 0 then .prealigned else .candidates g.duts step) (.tracks g.duts step)
    (if step > 0 then none else g.maxEvents) g.duts g.fitDuts (requiredHits g) quality useLimits) (.tracks g.duts step)

/-- `default_cluster_shapes`, L27. -/
def defaultShapes : List Nat := [1, 3, 5, 13, 14, 7, 11, 15]

/-- `'%f' % c`: six decimals. -/
noncomputable def printed (c : ℝ) : ℝ := (round (c * 10 ^ 6) : ℝ) / 10 ^ 6

/-- L1249-1252: the query of a DUT. -/
noncomputable def queryOf (chi2 : Option ℝ) (shapes : Option (List Nat)) : Query := open Classical in
  ⟨match chi2 with
    | none => none
    | some c => if c = 0 then none else some (printed c), shapes.getD defaultShapes⟩

/-- L1248-1266: the tracks are selected. -/
noncomputable def selectStep (g : Group) (step : Nat) (w : World) : World :=
  w.call (.selectTracks w.conf (.tracks g.duts step) (.selected g.duts step) g.duts (requiredHits g)
    (List.zipWith queryOf g.chi2 g.shapes)) (.selected g.duts step)

/-- L1254-1266: the settings of `select_tracks` for a DUT. -/
def criteriaOf (hits : List Nat) : Sel.Criteria := ⟨hits, [], hits, hits, hits⟩

/-- The query string of L1252 as condition on a track with reduced chi2 and cluster shape; none if it is empty. -/
noncomputable def testOf {R : Type} (chi : R → ℝ) (shape : R → Nat) (q : Query) : Option (R → Bool) := open Classical in
  match q.chi2, q.shapes with
  | none, [] => none
  | none, s => some fun t => decide (shape t ∈ s)
  | some c, [] => some fun t => decide (chi t < c)
  | some c, s => some fun t => decide (chi t < c) && decide (shape t ∈ s)

/-- L1268-1288: the rotation of the telescope is set to the mean angles of the tracks. -/
def angleStep (o : Oracle) (g : Group) (step : Nat) (w : World) : Except Err World :=
  match common g.duts g.fitDuts with
  | [] => .ok w
  | _ =>
    let w := w.call (.trackAngles w.conf (.selected g.duts step) (.angles g.duts step) g.duts) (.angles g.duts step)
    let w := match o.angles w.calls with
      | some (a, b) => { w with conf := { w.conf with alpha := a, beta := b } }
      | none => w
    w.remove (.angles g.duts step)

/-- L1290-1301: the residuals are only plotted. -/
def residualStep (plot : Bool) (g : Group) (step : Nat) (w : World) : Except Err World :=
  if plot then
    (w.call (.residuals w.conf (.selected g.duts step) (.residuals g.duts step) g.duts) (.residuals g.duts step)).remove (.residuals g.duts step)
  else .ok w

/-- L1307: the alignment parameters of a DUT. -/
def parametersFor (tel : List Nat) (d : Nat) (p : Option (List String)) : List String :=
  match p with
  | some p => p
  | none => if d ∈ tel then ["translation_x", "translation_y", "rotation_alpha", "rotation_beta", "rotation_gamma"] else defaultParameters

/-- L1303-1310: the alignment. -/
noncomputable def transformStep (o : Oracle) (a : Args) (tel : List Nat) (g : Group) (w : World) : Except Err World :=
  match calculateTransformation o.np ⟨a.useLimits, some 100, a.chunkSize⟩ o.fuel g.duts
      (some (List.zipWith (fun d p => some (parametersFor tel d p)) g.duts g.parameters)) (o.tables w.calls) w.conf.duts with
  | .error e => .error (.transformation e)
  | .ok duts => .ok { w with conf := { w.conf with duts := duts } }

/-- L1187-1314: one iteration. -/
noncomputable def iteration (o : Oracle) (a : Args) (quality : List (Option (ℝ × ℝ))) (g : Group) (step : Nat) (w : World) :
    Except Err World :=
  match a.telescopeDuts with
  | none => .error .telescopeDuts
  | some tel => do
    let w ← toBeam o tel g w
    let w ← readQuality quality w
    let w ← findCandidates g step w
    let w := selectStep g step (fitStep a.useLimits quality g step w)
    let w ← angleStep o g step w
    let w ← residualStep a.plot g step w
    let w ← transformStep o a tel g w
    let w ← w.remove (.tracks g.duts step)
    w.remove (.selected g.duts step)

/-- L1186-1314: the iterations from `step` on. -/
noncomputable def iterations (o : Oracle) (a : Args) (quality : List (Option (ℝ × ℝ))) (g : Group) : Nat → Nat → World → Except Err World
  | 0, _, w => .ok w
  | k + 1, step, w => do
    let w ← iteration o a quality g step w
    iterations o a quality g k (step + 1) w

/-- `_duts_alignment`, L1181-1318. -/
noncomputable def alignGroup (o : Oracle) (a : Args) (quality : List (Option (ℝ × ℝ))) (g : Group) (w : World) : Except Err World := do
  let w ← iterations o a quality g g.iterations 0 w
  removeCandidates g (g.iterations - 1) w

/-! ### `align` -/

/-- L853-863: the configuration with which the alignment starts: the input, or the existing file with the selected DUTs of the input. -/
def startConf (input : Conf) (existing : Option Conf) (groups : List Group) : Conf :=
  match existing with
  | none => input
  | some e => { e with duts := fun i => if groups.any fun g => decide (i ∈ g.duts) then input.duts i else e.duts i }

/-- L871-879: the track candidates are made for the first group and kept. They are made with the input configuration. -/
def findPrealigned (input : Conf) (w : World) : World :=
  if .prealigned ∈ w.files then w else w.call (.findTracks input .prealigned none) .prealigned

/-- L870-904: the groups one after the other. -/
noncomputable def alignGroups (o : Oracle) (a : Args) (input : Conf) (quality : List (Option (ℝ × ℝ))) : List Group → World → Except Err World
  | [], w => .ok w
  | g :: gs, w =>
    if g.duts.any fun d => decide (input.n ≤ d) then .error .noDut
    else do
      let w ← alignGroup o a quality g (findPrealigned input w)
      alignGroups o a input quality gs w

/-- L906-907 -/
def cleanUp (w : World) : World := { w with files := w.files.filter (· ≠ .prealigned) }

/-- L853-907: everything after the checks of the arguments. `existing` is the output configuration file if it exists; `files` are the
temporary files that exist already; the one with the track candidates is removed (L865-868). Simplification: an existing output file
contains all DUTs. -/
noncomputable def runAlign (o : Oracle) (a : Args) (input : Conf) (existing : Option Conf) (files : List Tmp)
    (s : List Group × List (Option (ℝ × ℝ))) : Except Err World :=
  if existing.isSome && s.1.any fun g => g.duts.any fun d => decide (input.n ≤ d) then .error .noDut
  else do
    let w ← alignGroups o a input s.2 s.1 ⟨startConf input existing s.1, files.filter (· ≠ .prealigned), []⟩
    .ok (cleanUp w)

/-- The configuration files, by name. -/
abbrev Store := List Char → Option Conf

/-- Result of `align`: the name of the output file, the configuration files, temporary files and calls. -/
structure Result where
  output : List Char
  store : Store
  world : World

/-- `align`, L528-911. `legacy`: numpy before 1.24; `root` is `os.path.splitext(...)[0]`. -/
noncomputable def align (legacy : Bool) (root : List Char → List Char) (o : Oracle) (a : Args) (store : Store) (input : List Char)
    (output : Option (List Char)) (files : List Tmp) : Except Err Result :=
  match store input with
  | none => .error .noFile
  | some conf => do
    let s ← settings legacy conf.n a
    let out ← outputName root input output
    let w ← runAlign o a conf (store out) files s
    .ok ⟨out, fun f => if f = out then some w.conf else store f, w⟩

end BTA.Align
