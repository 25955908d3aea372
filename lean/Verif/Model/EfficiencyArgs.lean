/-
Model of the arguments of `calculate_efficiency` (beam_telescope_analysis/result_analysis.py L630-811, L820-827, L864-873, L1064-1070): the
parameters with a pair for each DUT (`resolutions`, `in_pixel_resolutions`, `cut_distances`), the efficiency regions and their names.

Lists are objects which are changed in place: a list is a reference into a `Heap`. The values are of any type (numbers; for the cut also
infinity). Not modelled: iterables other than lists and tuples, a tuple of tuples given for a parameter with pairs, objects shared between
different parameters, `extend_areas`, `plot_ranges` and `disabled_pixel_masks`.
-/
namespace BTA.EffArgs

variable {V : Type}

inductive Err
  /-- ValueError of the checks at the beginning -/
  | value
  /-- TypeError: 'tuple' object does not support item assignment; object has no len() -/
  | type
deriving DecidableEq

/-- The contents of the lists of the caller. -/
abbrev Heap (V : Type) := Nat → List (Option V)

/-- The entry for one DUT; an element of a pair may be None. -/
inductive Item (V : Type)
  | none
  | tuple (v : List (Option V))
  | list (ref : Nat)
deriving DecidableEq

/-- The argument. -/
inductive Arg (V : Type)
  | none
  | tuple (v : List (Option V))
  | list (items : List (Item V))
  /-- something that is not iterable -/
  | other

/-- `len(item)`; `none` for None, which is not checked. -/
def Item.len (h : Heap V) : Item V → Option Nat
  | .none => Option.none
  | .tuple v => some v.length
  | .list r => some (h r).length

/-- L631-632 and alike: a tuple or None is used for all DUTs. -/
def expand (n : Nat) : Arg V → Except Err (List (Item V))
  | .none => .ok (List.replicate n .none)
  | .tuple v => .ok (List.replicate n (.tuple v))
  | .list items => .ok items
  | .other => .error .value

/-- L645-647: an item has length 2. -/
def pairLength (h : Heap V) (i : Item V) : Bool :=
  match i.len h with
  | some k => k == 2
  | Option.none => true

/-- L630-647 (`resolutions`), L649-666 (`in_pixel_resolutions`), L770-786 (`cut_distances`). -/
def checkPairs (h : Heap V) (n : Nat) (a : Arg V) : Except Err (List (Item V)) :=
  match expand n a with
  | .error e => .error e
  | .ok items =>
    if items = [] then .error .value
    else if items.length ≠ n then .error .value
    else if items.all (pairLength h) then .ok items
    else .error .value

/-- `item[i] = default` if it is None, for a list with the elements `v`. -/
def fillList (d : V × V) : List (Option V) → List (Option V)
  | [a, b] => [some (a.getD d.1), some (b.getD d.2)]
  | v => v

/-- L820-826, L867-873, L1064-1070: the pair for one DUT. The default is a new object, so nothing is written for None. -/
def fill (h : Heap V) (d : V × V) : Item V → Except Err (Heap V × (V × V))
  | .none => .ok (h, d)
  | .tuple [some a, some b] => .ok (h, (a, b))
  | .tuple _ => .error .type
  | .list r =>
    match h r with
    | [a, b] => .ok (fun k => if k = r then fillList d (h r) else h k, (a.getD d.1, b.getD d.2))
    | _ => .error .type

/-- The pairs of the DUTs, one after the other; `d` are the defaults of the DUTs. The lists of the caller are changed as far as the loop comes. -/
def fillAll : Heap V → List (Item V) → List (V × V) → Heap V × Except Err (List (V × V))
  | h, i :: is, d :: ds =>
    match fill h d i with
    | .error e => (h, .error e)
    | .ok (h', v) =>
      match fillAll h' is ds with
      | (h'', .error e) => (h'', .error e)
      | (h'', .ok vs) => (h'', .ok (v :: vs))
  | h, _, _ => (h, .ok [])

/-- The regions of a DUT (None or a list of regions; a region has a number of directions with a number of limits each). -/
abbrev Shape := List (List Nat)

/-- `efficiency_regions`; the tuple is used for all DUTs. -/
inductive Regions
  | none
  | tuple (regions : Shape)
  | list (items : List (Option Shape))
  | other

/-- L740-751. -/
def goodRegion (region : List Nat) : Bool := region.length == 2 && region.all (· == 2)

def goodRegions : Option Shape → Bool
  | some rs => rs.all goodRegion
  | Option.none => true

def expandRegions (n : Nat) : Regions → Except Err (List (Option Shape))
  | .none => .ok (List.replicate n Option.none)
  | .tuple rs => .ok (List.replicate n (some rs))
  | .list items => .ok items
  | .other => .error .value

/-- L729-751. -/
def checkRegions (n : Nat) (a : Regions) : Except Err (List (Option Shape)) :=
  match expandRegions n a with
  | .error e => .error e
  | .ok items =>
    if items = [] then .error .value
    else if items.length ≠ n then .error .value
    else if items.all goodRegions then .ok items
    else .error .value

/-- `efficiency_region_names`: None, a list with None or the names for each DUT, or something else. -/
inductive Names
  | none
  | list (items : List (Option (List (Option String))))
  | other

/-- L764-768: the names of one DUT; without regions they are not looked at. -/
def dutNames : Option (List (Option String)) → Option Shape → Except Err (Option (List (Option String)))
  | name, Option.none => .ok name
  | name, some [] => .ok name
  | Option.none, some rs => .ok (some (List.replicate rs.length Option.none))
  | some ns, some rs => if ns.length ≠ rs.length then .error .value else .ok (some ns)

/-- L763-768: the loop. -/
def namesLoop : List (Option (List (Option String))) → List (Option Shape) → Except Err (List (Option (List (Option String))))
  | nm :: nms, rg :: rgs =>
    match dutNames nm rg with
    | .error e => .error e
    | .ok x =>
      match namesLoop nms rgs with
      | .error e => .error e
      | .ok xs => .ok (x :: xs)
  | _, _ => .ok []

/-- L753-768. -/
def checkNames (n : Nat) (regions : List (Option Shape)) : Names → Except Err (List (Option (List (Option String))))
  | .none => namesLoop (List.replicate n Option.none) regions
  | .list items =>
    if items = [] then .error .value
    else if items.length ≠ n then .error .value
    else namesLoop items regions
  | .other => .error .value

/-- What the caller gives. -/
structure Call (V : Type) where
  heap : Heap V
  resolutions : Arg V
  regions : Regions
  names : Names
  /-- the pixel sizes of the selected DUTs -/
  duts : List (V × V)

/-- What happens: has the output file been opened for writing (which removes an existing file, L810), the lists of the caller after the call and the
resolution, the shapes of the regions and the names of the regions of each DUT. -/
structure Outcome (V : Type) where
  opened : Bool
  heap : Heap V
  result : Except Err (List (V × V) × List (Option Shape) × List (Option (List (Option String))))

/-- L810-827: the loop over the DUTs with the output file open. -/
def run (rgs : List (Option Shape)) (nms : List (Option (List (Option String)))) : Heap V × Except Err (List (V × V)) → Outcome V
  | (h, .error e) => ⟨true, h, .error e⟩
  | (h, .ok vs) => ⟨true, h, .ok (vs, rgs, nms)⟩

/-- `calculate_efficiency`, as far as these arguments are concerned; `resolutions` stands for the parameters with pairs. The list of the names is
changed for the caller, too (L766); this is not recorded here. -/
def call (c : Call V) : Outcome V :=
  match checkPairs c.heap c.duts.length c.resolutions with
  | .error e => ⟨false, c.heap, .error e⟩
  | .ok items =>
    match checkRegions c.duts.length c.regions with
    | .error e => ⟨false, c.heap, .error e⟩
    | .ok rgs =>
      match checkNames c.duts.length rgs c.names with
      | .error e => ⟨false, c.heap, .error e⟩
      | .ok nms =>
        run rgs nms (fillAll c.heap items c.duts)

end BTA.EffArgs
