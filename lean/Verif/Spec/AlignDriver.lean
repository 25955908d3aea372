import Verif.Model.AlignDriver
/-
Specification of the settings of `align` as they are documented, of the calls made for each group, and of the selection of tracks.
-/
namespace BTA.Align.Spec
open BTA.Dut BTA.Transformation BTA.Align

/-- The groups of DUTs given by `select_duts`: one list of DUTs is one group. -/
def IsGroups (legacy : Bool) (select : Option (List (Item Nat))) (groups : List (List Nat)) : Prop :=
  ((∃ duts, select = some (duts.map .one) ∧ groups = [duts]) ∨
    (select = some (groups.map .many) ∧ groups ≠ [] ∧ (legacy = true ∨ ∃ n, ∀ g ∈ groups, g.length = n))) ∧
  ∀ g ∈ groups, g ≠ []

/-- A list of DUTs for each group: the default value, one list for all groups, or a list for each group. -/
def IsPerGroup (default : List (List Nat)) (arg : Option (List (Item Nat))) (values : List (List Nat)) : Prop :=
  match arg with
  | none => values = default
  | some items => items ≠ [] ∧ ((∃ l, items = l.map .one ∧ values = List.replicate default.length l) ∨
      (items = values.map .many ∧ values.length = default.length))

/-- The alignment parameters of the DUTs of each group, none if not given. -/
def IsParameters (arg : Option (List (Option (List (Option (List String)))))) (groups : List Group) : Prop :=
  match arg with
  | none => ∀ g ∈ groups, g.parameters = List.replicate g.duts.length none
  | some l => List.Forall₂ (fun (p : Option (List (Option (List String)))) (g : Group) =>
      match p with
      | none => g.parameters = List.replicate g.duts.length none
      | some p => g.parameters = p ∧ p.length = g.duts.length) l groups

/-- The limits of chi2 of the DUTs of each group. -/
def IsChi2 (arg : Chi2) (groups : List Group) : Prop :=
  match arg with
  | .one c => ∀ g ∈ groups, g.chi2 = List.replicate g.duts.length c
  | .many l => List.Forall₂ (fun (c : Item (Option ℝ)) (g : Group) =>
      match c with
      | .one c => g.chi2 = List.replicate g.duts.length c
      | .many cs => g.chi2 = cs ∧ cs.length = g.duts.length) l groups

/-- The shapes of a DUT as item of the shapes of a group. -/
def asShape : Option (List Nat) → Shape
  | none => .none
  | some l => .list l

/-- The cluster shapes of the DUTs of a group: the default, one list for all DUTs, or an item for each DUT. -/
def IsGroupShapes (arg : ShapeArg) (g : Group) : Prop :=
  match arg with
  | .none => g.shapes = List.replicate g.duts.length none
  | .num _ => False
  | .list l => (∃ ns, l = ns.map Shape.num ∧ g.shapes = List.replicate g.duts.length (some ns)) ∨
      (l = g.shapes.map asShape ∧ g.shapes.length = g.duts.length)

/-- The cluster shapes of the DUTs of each group. -/
def IsShapes (arg : Option (List ShapeArg)) (groups : List Group) : Prop :=
  match arg with
  | none => ∀ g ∈ groups, g.shapes = List.replicate g.duts.length none
  | some l => (∃ ns, l = ns.map ShapeArg.num ∧ ∀ g ∈ groups, g.shapes = List.replicate g.duts.length (some ns)) ∨
      List.Forall₂ IsGroupShapes l groups

/-- Distances for each DUT of the telescope. -/
def IsDistances (n : Nat) (arg : Distances) (values : List (Option (ℝ × ℝ))) : Prop :=
  n ≠ 0 ∧ match arg with
  | .same d => values = List.replicate n d
  | .each l => values = l ∧ l.length = n

/-- A value for each group. -/
def IsEach {α : Type} (arg : Item α) (values : List α) : Prop :=
  match arg with
  | .one a => ∀ v ∈ values, v = a
  | .many l => values = l

/-- The settings of all groups belong to the arguments. -/
structure Settings (legacy : Bool) (n : Nat) (a : Args) (groups : List Group) (quality : List (Option (ℝ × ℝ))) : Prop where
  duts : IsGroups legacy a.selectDuts (groups.map Group.duts)
  parameters : IsParameters a.parameters groups
  hitDuts : IsPerGroup (groups.map Group.duts) a.hitDuts (groups.map Group.hitDuts)
  fitDuts : IsPerGroup (groups.map Group.hitDuts) a.fitDuts (groups.map Group.fitDuts)
  enough : ∀ g ∈ groups, 2 ≤ g.hitDuts.length ∧ 2 ≤ g.fitDuts.length ∧ ∀ d ∈ g.fitDuts, d ∈ g.hitDuts
  chi2 : IsChi2 a.chi2 groups
  shapes : IsShapes a.shapes groups
  quality : IsDistances n a.quality quality
  isolation : ∃ values, IsDistances n a.isolation values
  iterations : IsEach a.iterations (groups.map Group.iterations)
  maxEvents : IsEach a.maxEvents (groups.map Group.maxEvents)

/-- The DUT belongs to one of the groups. -/
def InGroup (groups : List Group) (i : Nat) : Prop := ∃ g ∈ groups, i ∈ g.duts

/-- No group contains a telescope DUT. -/
def NoTelescope (tel : Option (List Nat)) (groups : List Group) : Prop := ∀ t, tel = some t → ∀ g ∈ groups, ∀ d ∈ g.duts, d ∉ t

/-- No group contains one of its fit DUTs. -/
def NoFit (groups : List Group) : Prop := ∀ g ∈ groups, ∀ d ∈ g.duts, d ∉ g.fitDuts

/-- Same z position, rotation and limits. -/
def SameFrame (d d' : DutConf) : Prop :=
  d'.alignment.z = d.alignment.z ∧ d'.alignment.alpha = d.alignment.alpha ∧ d'.alignment.beta = d.alignment.beta ∧
  d'.alignment.gamma = d.alignment.gamma ∧ d'.xLimit = d.xLimit ∧ d'.yLimit = d.yLimit

/-- The parameter `name` of DUT `d` is to be aligned: it is selected, or nothing is selected for the DUT. Then all parameters are aligned,
but not the z position of telescope DUTs. -/
def Chosen (tel : List Nat) (groups : List Group) (d : Nat) (name : String) : Prop :=
  ∃ g ∈ groups, ∃ p, (d, p) ∈ g.duts.zip g.parameters ∧
    match p with
    | some l => name ∈ l
    | none => d ∈ tel → name ≠ "translation_z"

/-- The configuration used by a call of the track fit. -/
def fitConf : Call → Option Conf
  | .fitTracks c _ _ _ _ _ _ _ _ => some c
  | _ => none

/-- `root` and an extension make up the file name; the extension is empty or starts with a dot. -/
def SplitsExtension (root : List Char → List Char) : Prop := ∀ f, root f = f ∨ ∃ e, f = root f ++ '.' :: e

/-- The conditions for a DUT: the limit of chi2 up to the precision of the format, no limit if None or 0; the cluster shapes, by default
those of the alignment. -/
def IsQuery (chi2 : Option ℝ) (shapes : Option (List Nat)) (query : Query) : Prop :=
  (match chi2 with
    | none => query.chi2 = none
    | some c => (c = 0 → query.chi2 = none) ∧ (c ≠ 0 → ∃ c', query.chi2 = some c' ∧ |c' - c| ≤ 5e-7)) ∧
  (match shapes with
    | none => query.shapes = [1, 3, 5, 13, 14, 7, 11, 15]
    | some l => query.shapes = l)

/-- The configuration of a call of `find_tracks` that makes the candidates for the first iterations. -/
def prealignedOf : Call → Option (Conf × Option Nat)
  | .findTracks c .prealigned m => some (c, m)
  | _ => none

/-- A call of the track fit: the DUTs, the fit DUTs, and for each DUT those that must have a hit. -/
def fitOf : Call → Option (List Nat × List Nat × List (List Nat))
  | .fitTracks _ _ _ _ duts fitDuts hitDuts _ _ => some (duts, fitDuts, hitDuts)
  | _ => none

/-- A call of the track selection: the DUTs, for each DUT those that must have a hit, the conditions. -/
def selectionOf : Call → Option (List Nat × List (List Nat) × List Query)
  | .selectTracks _ _ _ duts hitDuts query => some (duts, hitDuts, query)
  | _ => none

end BTA.Align.Spec
