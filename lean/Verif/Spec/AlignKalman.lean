import Verif.Model.AlignKalman
import Verif.Spec.AlignDriver
import Verif.Spec.KalmanAlign
/-
Specification of `align_kalman`: the settings of the groups as they are documented, the order of the alignment, the files.
-/
namespace BTA.KDriver.Spec
open BTA.Align (Item)
open BTA.Align.Spec (IsGroups IsPerGroup IsEach)
open BTA.KAlign (Track Record Vec6 Mat6 initialAlignment alignmentLoop parName)
open BTA.KDriver

/-- The settings of all groups belong to the arguments. -/
structure Settings (legacy : Bool) (a : Args) (groups : List Group) : Prop where
  duts : IsGroups legacy a.selectDuts (groups.map Group.duts)
  parameters : match a.parameters with
    | none => ∀ g ∈ groups, g.parameters = some (List.replicate g.duts.length none)
    | some l => groups.map Group.parameters = l
  hit : IsPerGroup (groups.map Group.duts) a.hitDuts (groups.map Group.hit)
  fit : IsPerGroup (groups.map Group.hit) a.fitDuts (groups.map Group.fit)
  enough : ∀ g ∈ groups, 2 ≤ g.hit.length ∧ 2 ≤ g.fit.length ∧ ∀ d ∈ g.fit, d ∈ g.hit
  maxEvents : IsEach a.maxEvents (groups.map Group.maxEvents)
  maxTracks : IsEach a.maxTracks (groups.map Group.maxTracks)

/-- The call returns. -/
def Returns {n : Nat} (r : Result n) : Prop := ∃ f, r.output = .ok f

/-- The call raises. -/
def Raises {n : Nat} (r : Result n) : Prop := ∃ e, r.output = .error e

/-- No file is written and no track is searched. -/
def Untouched {n : Nat} (D : Disk n) (r : Result n) : Prop := r.disk = D ∧ r.calls = []

/-- The alignment parameters have the documented form: for each group a list with one item for each DUT. -/
def OnePerDut (parameters : List (Option (List (Option (List String))))) (groups : List (List Nat)) : Prop :=
  List.Forall₂ (fun (p : Option (List (Option (List String)))) (g : List Nat) => ∃ l, p = some l ∧ l.length = g.length) parameters groups

/-- Valid names of alignment parameters. -/
def parameterNames : List String :=
  ["translation_x", "translation_y", "translation_z", "rotation_alpha", "rotation_beta", "rotation_gamma"]

/-- The DUT is in one of the groups. -/
def InGroup (groups : List (List Nat)) (d : Nat) : Prop := ∃ g ∈ groups, d ∈ g

/-- The output configuration before the alignment: that of the input; if the output file exists already, only for the DUTs in the groups. -/
def IsStart {n : Nat} (input : Conf n) (existing : Option (Conf n)) (groups : List (List Nat)) (start : Conf n) : Prop :=
  ∀ d : Fin n, (InGroup groups d ∨ existing = none → start d = input d) ∧ ∀ old, existing = some old → ¬ InGroup groups d → start d = old d

/-- The alignment of a group with the tracks of the group: all settings are those of the group; the tracks have hits in all hit DUTs and are
fitted with the fit DUTs; `out` are the alignment afterwards and the lines for the output file. -/
def AlignedWith {n : Nat} {T : Type} (S : Setup n T) (a : Args) (tel : List Nat) (errors : Vec6) (index : Nat) (g : Group) (conf : Conf n)
    (out : KAlign.Out n) : Prop :=
  ∃ chi2s chi2 p cov, a.chi2 = .many chi2s ∧ chi2s[index]? = some chi2 ∧ g.parameters = some p ∧
    initialAlignment g.duts tel p errors = .ok cov ∧
    out = alignmentLoop
      { rot0 := fun _ => 1, pos0 := fun _ => 0, fit := S.fit g.fit, chi2Cut := chi2, annealingFactor := a.annealingFactor,
        annealingTracks := a.annealingTracks, maxTracks := g.maxTracks, hitMask := KAlign.hitMask g.hit }
      S.chunkSize conf cov (S.candidates index g.maxEvents) ∧
    out.err = none

/-- The groups are aligned one after the other, each starting with the alignment that the groups before have given, and the lines of the
output file follow each other. -/
inductive InOrder {n : Nat} {T : Type} (S : Setup n T) (a : Args) (tel : List Nat) (errors : Vec6) :
    Nat → List Group → Conf n → Conf n → List (Record n) → Prop
  | done (index : Nat) (conf : Conf n) : InOrder S a tel errors index [] conf conf []
  | next (index : Nat) (g : Group) (gs : List Group) (conf conf' : Conf n) (out : KAlign.Out n) (lines : List (Record n)) :
    AlignedWith S a tel errors index g conf out → InOrder S a tel errors (index + 1) gs out.saved conf' lines →
    InOrder S a tel errors index (g :: gs) conf conf' (out.table ++ lines)

/-- The track misses one of the DUTs. -/
def Misses {n : Nat} {T : Type} (t : Track n T) (duts : List Nat) : Prop := ∃ d ∈ duts, t.flag.testBit d = false

/-- Number of hits of the track in the DUTs. -/
def hitsIn {n : Nat} {T : Type} (t : Track n T) (duts : List Nat) : Nat := (duts.filter fun d => t.flag.testBit d).length

end BTA.KDriver.Spec
