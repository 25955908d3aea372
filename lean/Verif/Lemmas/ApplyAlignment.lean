import Verif.Spec.ApplyAlignment
import Verif.Props.Geometry
import Verif.Lemmas.Chunks
/-
Lemmas for `apply_alignment`: a chunk is converted row by row, every column by the functions of its assignments.
-/
namespace BTA.Apply
open BTA.Geo BTA.Dut BTA.Spec BTA.Apply.Spec

variable {α : Type}

theorem fill_map (f : Vec3 → Vec3) (l : List (Option Vec3)) : fill l ((l.filterMap id).map f) = l.map (Option.map f) := by
  induction l with
  | nil => rfl
  | cons x l ih =>
    cases x with
    | none => simpa [fill] using ih
    | some v => simpa [fill] using ih

/-- The function applied to positions. -/
noncomputable def point (toGlobal : Bool) (b : Alignment) (p : Vec3) : Vec3 :=
  if toGlobal then moved b p else (rotationMatrix b.alpha b.beta b.gamma).transpose.mulVec (p - ![b.x, b.y, b.z])

/-- The position that is checked: the local one. -/
noncomputable def checked (toGlobal : Bool) (b : Alignment) (p : Vec3) : Vec3 := if toGlobal then p else point false b p

/-- What is checked for a value. -/
def Passes (toGlobal : Bool) (dut : Alignment) (o : Override) (v : Option Vec3) : Prop :=
  o.none? = true → ∀ p, v = some p → |checked toGlobal dut p 2| ≤ 1 / 10 ^ 8

theorem on_none (o : Override) (a : Alignment) (h : o.none? = true) : o.on a = a := by
  simp only [Override.none?, Bool.and_eq_true, Option.isNone_iff_eq_none] at h
  obtain ⟨⟨⟨⟨⟨h1, h2⟩, h3⟩, h4⟩, h5⟩, h6⟩ := h
  simp [Override.on, h1, h2, h3, h4, h5, h6]

theorem conv_iff (toGlobal : Bool) (dut : Alignment) (o : Override) (l : List (Option Vec3)) (out : List (Option Vec3)) :
    conv toGlobal dut o l = .ok out ↔
      (∀ v ∈ l, Passes toGlobal dut o v) ∧ out = l.map (Option.map (point toGlobal (o.on dut))) := by
  unfold conv Passes
  cases toGlobal with
  | true =>
    simp only [if_true, localToGlobal]
    split
    · next e he =>
      split at he
      · next hz =>
        simp only [reduceCtorEq, false_iff, not_and]
        intro hall
        exfalso
        simp only [Bool.and_eq_true, Bool.not_eq_true', zClose] at hz
        rw [← Bool.not_eq_true, List.all_eq_true] at hz
        apply hz.2
        intro x hx
        obtain ⟨p, hp, rfl⟩ := List.mem_map.mp hx
        simp only [List.mem_filterMap, id_eq, exists_eq_right] at hp
        exact decide_eq_true (by simpa [checked] using hall (some p) hp hz.1 p rfl)
      · simp at he
    · next vs hvs =>
      split at hvs
      · simp at hvs
      · next hz =>
        simp only [Except.ok.injEq] at hvs ⊢
        subst hvs
        rw [fill_map]
        have hf : applyTransformation (localToGlobalMatrix (o.on dut).x (o.on dut).y (o.on dut).z (o.on dut).alpha (o.on dut).beta
            (o.on dut).gamma) = point true (o.on dut) := by
          funext p
          rw [apply_localToGlobal]; simp [point, moved]
        rw [hf]
        constructor
        · intro h
          refine ⟨?_, h.symm⟩
          rintro v hv ho p rfl
          simp only [Bool.and_eq_true, ho, true_and, Bool.not_eq_true', Bool.not_eq_false, zClose, List.all_eq_true] at hz
          have := hz (p 2) (List.mem_map.mpr ⟨p, List.mem_filterMap.mpr ⟨some p, hv, rfl⟩, rfl⟩)
          simpa [checked] using this
        · rintro ⟨-, rfl⟩; rfl
  | false =>
    simp only [Bool.false_eq_true, if_false, globalToLocal]
    have hf : applyTransformation (globalToLocalMatrix (o.on dut).x (o.on dut).y (o.on dut).z (o.on dut).alpha (o.on dut).beta
        (o.on dut).gamma) = point false (o.on dut) := by
      funext p
      rw [apply_globalToLocal]; simp [point]
    rw [hf]
    split
    · next e he =>
      split at he
      · next hz =>
        simp only [reduceCtorEq, false_iff, not_and]
        intro hall
        exfalso
        simp only [Bool.and_eq_true, Bool.not_eq_true', zClose] at hz
        rw [← Bool.not_eq_true, List.all_eq_true] at hz
        apply hz.2
        intro x hx
        obtain ⟨q, hq, rfl⟩ := List.mem_map.mp hx
        obtain ⟨p, hp, rfl⟩ := List.mem_map.mp hq
        simp only [List.mem_filterMap, id_eq, exists_eq_right] at hp
        rw [on_none o dut hz.1]
        exact decide_eq_true (by simpa [checked] using hall (some p) hp hz.1 p rfl)
      · simp at he
    · next vs hvs =>
      split at hvs
      · simp at hvs
      · next hz =>
        simp only [Except.ok.injEq] at hvs ⊢
        subst hvs
        rw [fill_map]
        constructor
        · intro h
          refine ⟨?_, h.symm⟩
          rintro v hv ho p rfl
          simp only [Bool.and_eq_true, ho, true_and, Bool.not_eq_true', Bool.not_eq_false, zClose, List.all_eq_true] at hz
          have := hz (point false (o.on dut) p 2)
            (List.mem_map.mpr ⟨_, List.mem_map.mpr ⟨p, List.mem_filterMap.mpr ⟨some p, hv, rfl⟩, rfl⟩, rfl⟩)
          rw [on_none o dut ho] at this
          simpa [checked] using this
        · rintro ⟨-, rfl⟩; rfl

/-- The function of an assignment. -/
noncomputable def fn (toGlobal : Bool) (s : Alignment × Assignment) (p : Vec3) : Vec3 :=
  if s.2.absolute then fun k => |point toGlobal (s.2.override.on s.1) p k| else point toGlobal (s.2.override.on s.1) p

/-- One row after an assignment. -/
noncomputable def rowStep (toGlobal : Bool) (s : Alignment × Assignment) (r : Row α) : Row α :=
  { r with pos := Function.update r.pos s.2.col ((r.pos s.2.col).map (fn toGlobal s)) }

theorem assign_iff (toGlobal : Bool) (node : Node α) (s : Alignment × Assignment) (rows out : List (Row α)) :
    assign toGlobal node s.1 s.2 rows = .ok out ↔
      node.has s.2.col = true ∧ (∀ r ∈ rows, Passes toGlobal s.1 s.2.override (r.pos s.2.col)) ∧
      out = rows.map (rowStep toGlobal s) := by
  unfold assign
  by_cases hc : node.has s.2.col = true
  · rw [if_pos hc]
    have hz : ∀ (g : Vec3 → Vec3) (l : List (Row α)),
        List.zipWith (fun r v => ({ r with pos := Function.update r.pos s.2.col v } : Row α)) l
          (l.map fun r => (r.pos s.2.col).map g) =
        l.map fun r => { r with pos := Function.update r.pos s.2.col ((r.pos s.2.col).map g) } := by
      intro g l
      induction l with
      | nil => rfl
      | cons r l ih => simp [ih]
    split
    · next e he =>
      simp only [reduceCtorEq, false_iff]
      rintro ⟨-, h2, -⟩
      have := (conv_iff toGlobal s.1 s.2.override (rows.map fun r => r.pos s.2.col) _).mpr
        ⟨by intro v hv; obtain ⟨r, hr, rfl⟩ := List.mem_map.mp hv; exact h2 r hr, rfl⟩
      rw [he] at this
      simp at this
    · next vs hvs =>
      obtain ⟨h1, rfl⟩ := (conv_iff _ _ _ _ _).mp hvs
      dsimp only
      have e : (if s.2.absolute = true then
            ((rows.map fun r => r.pos s.2.col).map (Option.map (point toGlobal (s.2.override.on s.1)))).map (Option.map fun v k => |v k|)
          else (rows.map fun r => r.pos s.2.col).map (Option.map (point toGlobal (s.2.override.on s.1)))) =
          rows.map fun r => (r.pos s.2.col).map (fn toGlobal s) := by
        unfold fn
        split
        · simp only [List.map_map, List.map_inj_left, Function.comp_apply, Option.map_map]
          intro r _
          rfl
        · rw [List.map_map]; rfl
      rw [e, hz]
      simp only [Except.ok.injEq, hc, true_and]
      constructor
      · rintro rfl
        exact ⟨fun r hr => h1 _ (List.mem_map.mpr ⟨r, hr, rfl⟩), rfl⟩
      · rintro ⟨-, rfl⟩; rfl
  · rw [if_neg hc]
    simp [hc]

/-- A row after a sequence of assignments. -/
noncomputable def rowSteps (toGlobal : Bool) (l : List (Alignment × Assignment)) (r : Row α) : Row α := l.foldl (fun r s => rowStep toGlobal s r) r

/-- All checks of a sequence of assignments for a row. -/
def PassesAll (toGlobal : Bool) : List (Alignment × Assignment) → Row α → Prop
  | [], _ => True
  | s :: l, r => Passes toGlobal s.1 s.2.override (r.pos s.2.col) ∧ PassesAll toGlobal l (rowStep toGlobal s r)

theorem assignAll_iff (toGlobal : Bool) (node : Node α) (l : List (Alignment × Assignment)) (rows out : List (Row α)) :
    assignAll toGlobal node l rows = .ok out ↔
      (∀ s ∈ l, node.has s.2.col = true) ∧ (∀ r ∈ rows, PassesAll toGlobal l r) ∧ out = rows.map (rowSteps toGlobal l) := by
  induction l generalizing rows with
  | nil =>
    have e : rows.map (rowSteps toGlobal []) = rows := List.map_id' rows
    rw [e]
    simp only [assignAll, Except.ok.injEq, List.not_mem_nil, false_implies, implies_true, PassesAll, true_and]
    exact eq_comm
  | cons s l ih =>
    rw [assignAll]
    cases h : assign toGlobal node s.1 s.2 rows with
    | error e =>
      simp only [reduceCtorEq, false_iff]
      rintro ⟨h1, h2, -⟩
      have := (assign_iff toGlobal node s rows _).mpr ⟨h1 s (by simp), fun r hr => (h2 r hr).1, rfl⟩
      rw [h] at this
      simp at this
    | ok rows' =>
      obtain ⟨h1, h2, rfl⟩ := (assign_iff toGlobal node s rows rows').mp h
      simp only
      rw [ih]
      simp only [List.mem_cons, forall_eq_or_imp, h1, true_and, List.forall_mem_map, PassesAll, List.map_map, rowSteps, List.foldl_cons]
      constructor
      · rintro ⟨a, b, c⟩
        exact ⟨a, fun r hr => ⟨h2 r hr, b r hr⟩, by rw [c]; rfl⟩
      · rintro ⟨a, b, c⟩
        exact ⟨a, fun r hr => (b r hr).2, by rw [c]; rfl⟩

/-- The functions applied to a column, the last one first. -/
noncomputable def along (toGlobal : Bool) (l : List (Alignment × Assignment)) (c : Col) (p : Vec3) : Vec3 :=
  (l.filter fun s => decide (s.2.col = c)).foldl (fun q s => fn toGlobal s q) p

theorem rowSteps_pos (toGlobal : Bool) (l : List (Alignment × Assignment)) (r : Row α) (c : Col) :
    (rowSteps toGlobal l r).pos c = (r.pos c).map (along toGlobal l c) := by
  induction l generalizing r with
  | nil => simp [rowSteps, along]; cases r.pos c <;> rfl
  | cons s l ih =>
    have : rowSteps toGlobal (s :: l) r = rowSteps toGlobal l (rowStep toGlobal s r) := rfl
    rw [this, ih]
    unfold along
    by_cases h : s.2.col = c
    · subst h
      simp only [rowStep, Function.update_self, Option.map_map, decide_true, List.filter_cons_of_pos, List.foldl_cons]
      rfl
    · rw [List.filter_cons_of_neg (by simpa using h)]
      simp only [rowStep]
      rw [Function.update_of_ne (Ne.symm h)]

theorem rowSteps_other (toGlobal : Bool) (l : List (Alignment × Assignment)) (r : Row α) :
    (rowSteps toGlobal l r).event = r.event ∧ (rowSteps toGlobal l r).rest = r.rest := by
  induction l generalizing r with
  | nil => exact ⟨rfl, rfl⟩
  | cons s l ih =>
    have : rowSteps toGlobal (s :: l) r = rowSteps toGlobal l (rowStep toGlobal s r) := rfl
    rw [this]
    exact ih _

/-- The loop over the chunks. -/
theorem chunkLoop_iff (args : Args) (duts : List Alignment) (node : Node α) (cs : List (List (Row α))) (out : List (Row α)) :
    chunkLoop args duts node cs = .ok out ↔
      (cs ≠ [] → ∀ s ∈ chunkAssignments args duts node, node.has s.2.col = true) ∧
      (∀ r ∈ cs.flatten, PassesAll args.toGlobal (chunkAssignments args duts node) r) ∧
      out = cs.flatten.map (rowSteps args.toGlobal (chunkAssignments args duts node)) := by
  induction cs generalizing out with
  | nil =>
    simp only [chunkLoop, Except.ok.injEq, ne_eq, not_true_eq_false, false_implies, List.flatten_nil, List.not_mem_nil, implies_true,
      List.map_nil, true_and]
    exact eq_comm
  | cons c cs ih =>
    rw [chunkLoop]
    cases h : assignAll args.toGlobal node (chunkAssignments args duts node) c with
    | error e =>
      simp only [reduceCtorEq, false_iff]
      rintro ⟨h1, h2, -⟩
      have := (assignAll_iff args.toGlobal node _ c _).mpr ⟨h1 (by simp), fun r hr => h2 r (by simp [hr]), rfl⟩
      rw [h] at this
      simp at this
    | ok c' =>
      obtain ⟨h1, h2, rfl⟩ := (assignAll_iff args.toGlobal node _ c c').mp h
      dsimp only
      cases h' : chunkLoop args duts node cs with
      | error e =>
        simp only [reduceCtorEq, false_iff]
        rintro ⟨g1, g2, -⟩
        have := (ih _).mpr ⟨fun _ => h1, fun r hr => g2 r (by simp only [List.flatten_cons, List.mem_append]; exact .inr hr), rfl⟩
        rw [h'] at this
        simp at this
      | ok r' =>
        obtain ⟨g1, g2, rfl⟩ := (ih r').mp h'
        simp only [Except.ok.injEq, ne_eq, reduceCtorEq, not_false_eq_true, forall_const, List.flatten_cons, List.map_append]
        constructor
        · rintro rfl
          refine ⟨h1, ?_, rfl⟩
          intro r hr
          rcases List.mem_append.mp hr with hr | hr
          · exact h2 r hr
          · exact g2 r hr
        · rintro ⟨-, -, rfl⟩; rfl

/-- A table of sorted events. -/
theorem applyNode_ok {args : Args} {duts : List Alignment} {node node' : Node α} (hs : SortedBy Row.event node.rows)
    (hcs : 0 < args.chunkSize) (h : applyNode args duts node = .ok node') :
    node'.name = node.name ∧ node'.has = node.has ∧
    (∀ r ∈ node.rows, PassesAll args.toGlobal (chunkAssignments args duts node) r) ∧
    (node.rows ≠ [] → ∀ s ∈ chunkAssignments args duts node, node.has s.2.col = true) ∧
    node'.rows = node.rows.map (rowSteps args.toGlobal (chunkAssignments args duts node)) := by
  unfold applyNode at h
  dsimp only at h
  cases hl : chunkLoop args duts node ((dataAligned Row.event node.rows { chunkSize := args.chunkSize }).items.map Prod.fst) with
  | error e => rw [hl] at h; simp at h
  | ok rows =>
    rw [hl] at h
    dsimp only at h
    cases he : (dataAligned Row.event node.rows { chunkSize := args.chunkSize }).err with
    | some e => rw [he] at h; simp at h
    | none =>
      rw [he] at h
      simp only [Except.ok.injEq] at h
      subst h
      have hT : ((dataAligned Row.event node.rows { chunkSize := args.chunkSize }).items.map Prod.fst).flatten = node.rows := by
        rcases (chunks_default hs args.chunkSize hcs).2.2 with ⟨h1, -⟩ | ⟨-, h2⟩
        · rw [he] at h1; simp at h1
        · rw [← List.flatMap_def]; exact h2
      obtain ⟨h1, h2, h3⟩ := (chunkLoop_iff _ _ _ _ _).mp hl
      rw [hT] at h2 h3
      refine ⟨rfl, rfl, h2, ?_, h3⟩
      intro hne
      refine h1 fun h0 => hne ?_
      rw [← hT, h0]; rfl

theorem applyNode_exists {args : Args} {duts : List Alignment} {node : Node α} (hs : SortedBy Row.event node.rows)
    (hcs : 0 < args.chunkSize) (hm : ∀ e, multiplicity Row.event node.rows e < args.chunkSize)
    (h1 : ∀ s ∈ chunkAssignments args duts node, node.has s.2.col = true)
    (h2 : ∀ r ∈ node.rows, PassesAll args.toGlobal (chunkAssignments args duts node) r) :
    applyNode args duts node =
      .ok { node with rows := node.rows.map (rowSteps args.toGlobal (chunkAssignments args duts node)) } := by
  have he := chunks_ok hs args.chunkSize hcs hm
  have hT : ((dataAligned Row.event node.rows { chunkSize := args.chunkSize }).items.map Prod.fst).flatten = node.rows := by
    rcases (chunks_default hs args.chunkSize hcs).2.2 with ⟨h1, -⟩ | ⟨-, h2⟩
    · rw [he] at h1; simp at h1
    · rw [← List.flatMap_def]; exact h2
  unfold applyNode
  dsimp only
  rw [(chunkLoop_iff args duts node _ _).mpr ⟨fun _ => h1, by rw [hT]; exact h2, rfl⟩]
  dsimp only
  rw [he, hT]

theorem applyAlignment_iff (args : Args) (duts : List Alignment) (nodes out : List (Node α)) :
    applyAlignment args duts nodes = .ok out ↔ List.Forall₂ (fun n n' => applyNode args duts n = .ok n') nodes out := by
  induction nodes generalizing out with
  | nil =>
    simp only [applyAlignment, Except.ok.injEq, List.forall₂_nil_left_iff]
    exact eq_comm
  | cons n r ih =>
    rw [applyAlignment, List.forall₂_cons_left_iff]
    cases h : applyNode args duts n with
    | error e => simp
    | ok n' =>
      dsimp only
      cases h' : applyAlignment args duts r with
      | error e =>
        simp only [reduceCtorEq, false_iff]
        rintro ⟨b, u, -, h2, -⟩
        rw [(ih u).mpr h2] at h'
        simp at h'
      | ok r' =>
        simp only [Except.ok.injEq]
        constructor
        · rintro rfl; exact ⟨n', r', rfl, (ih r').mp h', rfl⟩
        · rintro ⟨b, u, rfl, h2, rfl⟩
          have := (ih u).mpr h2
          rw [h'] at this
          simp only [Except.ok.injEq] at this
          rw [this]

/-! ### The assignments of a column -/

/-- The checks of a column. -/
def PassesCol (toGlobal : Bool) : List (Alignment × Assignment) → Option Vec3 → Prop
  | [], _ => True
  | s :: l, v => Passes toGlobal s.1 s.2.override v ∧ PassesCol toGlobal l (v.map (fn toGlobal s))

theorem passesAll_iff (toGlobal : Bool) (l : List (Alignment × Assignment)) (r : Row α) :
    PassesAll toGlobal l r ↔ ∀ c, PassesCol toGlobal (l.filter fun s => decide (s.2.col = c)) (r.pos c) := by
  induction l generalizing r with
  | nil => simp [PassesAll, PassesCol]
  | cons s l ih =>
    rw [PassesAll, ih]
    constructor
    · rintro ⟨h1, h2⟩ c
      have h2 := h2 c
      by_cases h : s.2.col = c
      · subst h
        simp only [decide_true, List.filter_cons_of_pos, PassesCol]
        refine ⟨h1, ?_⟩
        simpa [rowStep] using h2
      · rw [List.filter_cons_of_neg (by simpa using h)]
        simp only [rowStep] at h2
        rwa [Function.update_of_ne (Ne.symm h)] at h2
    · intro H
      have H0 := H s.2.col
      simp only [decide_true, List.filter_cons_of_pos, PassesCol] at H0
      refine ⟨H0.1, fun c => ?_⟩
      by_cases h : s.2.col = c
      · subst h
        simpa [rowStep] using H0.2
      · have H1 := H c
        rw [List.filter_cons_of_neg (by simpa using h)] at H1
        simp only [rowStep]
        rwa [Function.update_of_ne (Ne.symm h)]

theorem flatMap_zipIdx_single {A B : Type} (f : A × Nat → List B) (i : Nat) (h : ∀ a k, k ≠ i → f (a, k) = []) (l : List A) (n : Nat)
    (hn : n ≤ i) : (l.zipIdx n).flatMap f = match l[i - n]? with | some a => f (a, i) | none => [] := by
  have hz : ∀ (l : List A) (n : Nat), i < n → (l.zipIdx n).flatMap f = [] := by
    intro l
    induction l with
    | nil => intro n _; rfl
    | cons a l ih =>
      intro n hn
      rw [List.zipIdx_cons, List.flatMap_cons, ih (n + 1) (by omega), h a n (by omega)]; rfl
  induction l generalizing n with
  | nil => simp
  | cons a l ih =>
    rw [List.zipIdx_cons, List.flatMap_cons]
    by_cases e : n = i
    · subst e
      rw [hz l (n + 1) (by omega)]
      simp
    · rw [ih (n + 1) (by omega), h a n e]
      have : i - n = (i - (n + 1)) + 1 := by omega
      rw [this, List.getElem?_cons_succ]; rfl

/-- The assignments of a DUT for a column. -/
theorem assignments_filter (node : Node α) (a : Alignment) (beam : Option Alignment) (i : Nat) (c : Col) :
    (assignments node a beam i).filter (fun s => decide (s.col = c)) = match c with
      | .hit j => if i = j then [⟨.hit i, hitOverride beam, false⟩] else []
      | .offsetDut j => if i = j ∧ occurs "Tracks" node.name = true ∧ node.has (.offsetDut i) = true then
          [⟨.offsetDut i, fullOverride (beam.getD a), false⟩] else []
      | .slopeDut j => if i = j ∧ occurs "Tracks" node.name = true ∧ node.has (.slopeDut i) = true then
          [⟨.slopeDut i, turnOverride (beam.getD a), false⟩] else []
      | .err j => if i = j ∧ occurs "Tracks" node.name = true ∧ node.has (.err i) = true then
          [⟨.err i, turnOverride (beam.getD a), true⟩] else []
      | .offset => if occurs ("DUT" ++ toString i) node.name = true ∧ occurs "Tracks" node.name = true ∧ node.has .offset = true then
          [⟨.offset, fullOverride (beam.getD a), false⟩] else []
      | .slope => if occurs ("DUT" ++ toString i) node.name = true ∧ occurs "Tracks" node.name = true ∧ node.has .slope = true then
          [⟨.slope, turnOverride (beam.getD a), false⟩] else [] := by
  unfold assignments
  dsimp only
  generalize occurs ("DUT" ++ toString i) node.name = named
  generalize occurs "Tracks" node.name = tracks
  generalize h1 : node.has (.offsetDut i) = b1
  generalize h2 : node.has (.slopeDut i) = b2
  generalize h3 : node.has (.err i) = b3
  generalize h4 : node.has .offset = b4
  generalize h5 : node.has .slope = b5
  cases tracks <;> cases named <;> cases b1 <;> cases b2 <;> cases b3 <;> cases b4 <;> cases b5 <;> cases c <;>
    simp [h1, h2, h3, h4, h5, List.filter_cons]

/-- Columns of the DUT `i`. -/
def Col.dut? : Col → Option Nat
  | .hit i => some i
  | .offsetDut i => some i
  | .slopeDut i => some i
  | .err i => some i
  | .offset => none
  | .slope => none

/-- The override and the absolute value of a column. -/
def colAssignment (c : Col) (a : Alignment) (beam : Option Alignment) : Assignment := match c with
  | .hit i => ⟨.hit i, hitOverride beam, false⟩
  | .offsetDut i => ⟨.offsetDut i, fullOverride (beam.getD a), false⟩
  | .slopeDut i => ⟨.slopeDut i, turnOverride (beam.getD a), false⟩
  | .err i => ⟨.err i, turnOverride (beam.getD a), true⟩
  | .offset => ⟨.offset, fullOverride (beam.getD a), false⟩
  | .slope => ⟨.slope, turnOverride (beam.getD a), false⟩

/-- The column is converted in this table. -/
def active (node : Node α) (c : Col) : Bool := match c with
  | .hit _ => true
  | c => occurs "Tracks" node.name && node.has c

/-- The column belongs to the DUT `i`. -/
def owns (node : Node α) (i : Nat) (c : Col) : Bool := match c.dut? with
  | some j => decide (i = j)
  | none => occurs ("DUT" ++ toString i) node.name

theorem assignments_filter' (node : Node α) (a : Alignment) (beam : Option Alignment) (i : Nat) (c : Col) :
    (assignments node a beam i).filter (fun s => decide (s.col = c)) =
      if owns node i c && active node c then [colAssignment c a beam] else [] := by
  rw [assignments_filter]
  cases c with
  | hit j => by_cases h : i = j <;> simp [owns, Col.dut?, active, colAssignment, h]
  | offsetDut j => by_cases h : i = j <;> simp [owns, Col.dut?, active, colAssignment, h]
  | slopeDut j => by_cases h : i = j <;> simp [owns, Col.dut?, active, colAssignment, h]
  | err j => by_cases h : i = j <;> simp [owns, Col.dut?, active, colAssignment, h]
  | offset => simp [owns, Col.dut?, active, colAssignment]
  | slope => simp [owns, Col.dut?, active, colAssignment]

/-- All assignments of a column that belongs to one DUT only. -/
theorem filter_chunkAssignments (args : Args) (duts : List Alignment) (node : Node α) (c : Col) (i : Nat)
    (ho : ∀ k, k < duts.length → owns node k c = true → k = i) :
    (chunkAssignments args duts node).filter (fun s => decide (s.2.col = c)) =
      match duts[i]? with
      | some a => if owns node i c && active node c then (calls args).map fun beam => (a, colAssignment c a beam) else []
      | none => [] := by
  have key : ∀ p : Alignment × Nat,
      ((calls args).flatMap fun beam => (assignments node p.1 beam p.2).map fun a => (p.1, a)).filter (fun s => decide (s.2.col = c)) =
      if owns node p.2 c && active node c then (calls args).map fun beam => (p.1, colAssignment c p.1 beam) else [] := by
    intro p
    rw [List.filter_flatMap]
    have : ∀ beam, ((assignments node p.1 beam p.2).map fun a => (p.1, a)).filter (fun s => decide (s.2.col = c)) =
        if owns node p.2 c && active node c then [(p.1, colAssignment c p.1 beam)] else [] := by
      intro beam
      rw [List.filter_map]
      have e : ((fun s : Alignment × Assignment => decide (s.2.col = c)) ∘ fun a => (p.1, a)) = fun s => decide (s.col = c) := rfl
      rw [e, assignments_filter']
      split <;> rfl
    simp only [this]
    split
    · rw [← List.map_eq_flatMap]
    · simp
  unfold chunkAssignments
  rw [List.filter_flatMap]
  simp only [key]
  -- only the DUTs of the list matter
  have : duts.zipIdx.flatMap (fun p => if owns node p.2 c && active node c then
        (calls args).map fun beam => (p.1, colAssignment c p.1 beam) else []) =
      duts.zipIdx.flatMap (fun p => if p.2 = i then (if owns node p.2 c && active node c then
        (calls args).map fun beam => (p.1, colAssignment c p.1 beam) else []) else []) := by
    apply List.flatMap_congr
    rintro ⟨a, k⟩ hp
    have hk : k < duts.length := by
      have := List.mem_zipIdx hp
      omega
    by_cases e : k = i
    · simp [e]
    · have : owns node k c = false := by
        rw [← Bool.not_eq_true]; exact fun h => e (ho k hk h)
      simp [e, this]
  rw [this, flatMap_zipIdx_single _ i (fun a k hk => by simp [hk]) duts 0 (Nat.zero_le _)]
  simp only [Nat.sub_zero, if_true]
  cases duts[i]? <;> rfl

/-! ### Values -/

theorem empty_on (a : Alignment) : ({} : Override).on a = a := rfl

theorem fullOverride_on (b a : Alignment) : (fullOverride b).on a = b := rfl

theorem turnOverride_on (b a : Alignment) : (turnOverride b).on a = ⟨0, 0, 0, b.alpha, b.beta, b.gamma⟩ := rfl

theorem fullOverride_none (b : Alignment) : (fullOverride b).none? = false := rfl

theorem turnOverride_none (b : Alignment) : (turnOverride b).none? = false := rfl

theorem zero3 : (![0, 0, 0] : Vec3) = 0 := by ext i; fin_cases i <;> rfl

theorem moved_turn (b : Alignment) : moved ⟨0, 0, 0, b.alpha, b.beta, b.gamma⟩ = turned b := by
  funext p
  simp only [moved, turned, zero3, add_zero]

theorem point_back (b : Alignment) (p : Vec3) : point false b (moved b p) = p := by
  simp only [point, moved, Bool.false_eq_true, if_false]
  rw [add_sub_cancel_right, Matrix.mulVec_mulVec, rotationMatrix_orth, Matrix.one_mulVec]

theorem point_turn (b : Alignment) (p : Vec3) : point false ⟨0, 0, 0, b.alpha, b.beta, b.gamma⟩ (turned b p) = p := by
  rw [← moved_turn, point_back]

/-- The telescope alignment that is used. -/
def beamOf (args : Args) : Option Alignment := if args.alignToBeam then some args.telescope else none

/-- The conversion of a column to global coordinates. -/
noncomputable def forward (beam : Option Alignment) (a : Alignment) : Col → Vec3 → Vec3
  | .hit _ => globalPosition beam a
  | .offsetDut _ => globalPosition beam a
  | .slopeDut _ => globalDirection beam a
  | .err _ => globalError beam a
  | .offset => globalPosition beam a
  | .slope => globalDirection beam a

theorem calls_forward (args : Args) (h : args.toGlobal = true) : calls args = none :: (beamOf args).toList.map some := by
  unfold calls beamOf
  cases args.alignToBeam <;> simp [h]

theorem calls_backward (args : Args) (h : args.toGlobal = false) : calls args = (beamOf args).toList.map some ++ [none] := by
  unfold calls beamOf
  cases args.alignToBeam <;> simp [h]

theorem foldl_forward (args : Args) (h : args.toGlobal = true) (a : Alignment) (c : Col) (p : Vec3) :
    ((calls args).map fun beam => (a, colAssignment c a beam)).foldl (fun q s => fn true s q) p = forward (beamOf args) a c p := by
  rw [calls_forward args h]
  cases beamOf args with
  | none =>
    cases c <;>
    simp [colAssignment, hitOverride, fn, forward, globalPosition, globalDirection, globalError, point, fullOverride_on, turnOverride_on,
      moved_turn, empty_on]
  | some t =>
    cases c <;>
    simp [colAssignment, hitOverride, fn, forward, globalPosition, globalDirection, globalError, point, fullOverride_on, turnOverride_on,
      moved_turn, empty_on]

theorem foldl_backward (args : Args) (h : args.toGlobal = false) (a : Alignment) (c : Col) (hc : ∀ i, c ≠ .err i) (p : Vec3) :
    ((calls args).map fun beam => (a, colAssignment c a beam)).foldl (fun q s => fn false s q) (forward (beamOf args) a c p) = p := by
  rw [calls_backward args h]
  cases beamOf args with
  | none =>
    cases c <;>
    simp [colAssignment, hitOverride, fn, forward, globalPosition, globalDirection, fullOverride_on, turnOverride_on,
      point_back, point_turn, empty_on]
    exact absurd rfl (hc _)
  | some t =>
    cases c <;>
    simp [colAssignment, hitOverride, fn, forward, globalPosition, globalDirection, fullOverride_on, turnOverride_on,
      point_back, point_turn, empty_on]
    exact absurd rfl (hc _)

theorem passesCol_free (toGlobal : Bool) (l : List (Alignment × Assignment)) (h : ∀ s ∈ l, s.2.override.none? = false) (v : Option Vec3) :
    PassesCol toGlobal l v := by
  induction l generalizing v with
  | nil => trivial
  | cons s l ih =>
    refine ⟨?_, ih (fun s hs => h s (by simp [hs])) _⟩
    intro h'
    rw [h s (by simp)] at h'
    simp at h'

theorem passes_forward (args : Args) (h : args.toGlobal = true) (a : Alignment) (i : Nat) (v : Option Vec3) :
    PassesCol true ((calls args).map fun beam => (a, colAssignment (.hit i) a beam)) v ↔ ∀ p, v = some p → |p 2| ≤ 1 / 10 ^ 8 := by
  rw [calls_forward args h]
  cases beamOf args with
  | none => simp [PassesCol, Passes, colAssignment, hitOverride, checked, Override.none?]
  | some t => simp [PassesCol, Passes, colAssignment, hitOverride, checked, Override.none?, fullOverride]

theorem passes_backward (args : Args) (h : args.toGlobal = false) (a : Alignment) (i : Nat) (v : Option Vec3) :
    PassesCol false ((calls args).map fun beam => (a, colAssignment (.hit i) a beam)) (v.map (forward (beamOf args) a (.hit i))) ↔
      ∀ p, v = some p → |p 2| ≤ 1 / 10 ^ 8 := by
  rw [calls_backward args h]
  cases beamOf args with
  | none =>
    cases v with
    | none => simp [PassesCol, Passes]
    | some q =>
      simp [PassesCol, Passes, colAssignment, hitOverride, checked, Override.none?, forward, globalPosition, point_back]
  | some t =>
    cases v with
    | none => simp [PassesCol, Passes]
    | some q =>
      simp [PassesCol, Passes, colAssignment, hitOverride, checked, forward, globalPosition, point_back, fn, fullOverride_on,
        fullOverride_none]
      simp [Override.none?]

theorem assignments_free (node : Node α) (a : Alignment) (beam : Option Alignment) (i : Nat) (s : Assignment)
    (hs : s ∈ assignments node a beam i) (hc : ∀ j, s.col ≠ .hit j) : s.override.none? = false := by
  have h1 : s ∈ (assignments node a beam i).filter (fun s' => decide (s'.col = s.col)) := by simp [hs]
  rw [assignments_filter'] at h1
  split at h1
  · rw [List.mem_singleton] at h1
    generalize hk : s.col = k at h1 hc
    cases k <;> (try exact absurd rfl (hc _)) <;> (rw [h1]; rfl)
  · simp at h1

theorem chunkAssignments_mem (args : Args) (duts : List Alignment) (node : Node α) (s : Alignment × Assignment)
    (hs : s ∈ chunkAssignments args duts node) :
    ∃ a i beam, i < duts.length ∧ s.1 = a ∧ s.2 ∈ assignments node a beam i := by
  unfold chunkAssignments at hs
  obtain ⟨⟨a, i⟩, hp, hs⟩ := List.mem_flatMap.mp hs
  obtain ⟨beam, -, hs⟩ := List.mem_flatMap.mp hs
  obtain ⟨x, hx, rfl⟩ := List.mem_map.mp hs
  have := List.mem_zipIdx hp
  exact ⟨a, i, beam, by omega, rfl, hx⟩

theorem has_iff (args : Args) (duts : List Alignment) (node : Node α) :
    (∀ s ∈ chunkAssignments args duts node, node.has s.2.col = true) ↔ ∀ i, i < duts.length → node.has (.hit i) = true := by
  constructor
  · intro h i hi
    have hf := filter_chunkAssignments args duts node (.hit i) i (by simp [owns, Col.dut?])
    rw [List.getElem?_eq_getElem hi] at hf
    simp only [owns, Col.dut?, active, decide_true, Bool.true_and, if_true] at hf
    have hm : (duts[i], colAssignment (.hit i) duts[i] none) ∈ chunkAssignments args duts node := by
      apply List.mem_of_mem_filter (p := fun s => decide (s.2.col = .hit i))
      rw [hf]
      refine List.mem_map.mpr ⟨none, ?_, rfl⟩
      unfold calls; simp
    exact h _ hm
  · intro h s hs
    obtain ⟨a, i, beam, hi, -, hm⟩ := chunkAssignments_mem args duts node s hs
    have h1 : s.2 ∈ (assignments node a beam i).filter (fun s' => decide (s'.col = s.2.col)) := by simp [hm]
    rw [assignments_filter'] at h1
    split at h1
    · next hh =>
      simp only [Bool.and_eq_true] at hh
      generalize hk : s.2.col = k at hh
      cases k with
      | hit j =>
        have : i = j := by simpa [owns, Col.dut?] using hh.1
        subst this
        exact h i hi
      | offsetDut j => simp only [active, Bool.and_eq_true] at hh; exact hh.2.2
      | slopeDut j => simp only [active, Bool.and_eq_true] at hh; exact hh.2.2
      | err j => simp only [active, Bool.and_eq_true] at hh; exact hh.2.2
      | offset => simp only [active, Bool.and_eq_true] at hh; exact hh.2.2
      | slope => simp only [active, Bool.and_eq_true] at hh; exact hh.2.2
    · simp at h1

/-- The checks of a row. -/
theorem passesAll_hits (args : Args) (duts : List Alignment) (node : Node α) (r : Row α) :
    PassesAll args.toGlobal (chunkAssignments args duts node) r ↔
      ∀ i a, duts[i]? = some a →
        PassesCol args.toGlobal ((calls args).map fun beam => (a, colAssignment (.hit i) a beam)) (r.pos (.hit i)) := by
  rw [passesAll_iff]
  constructor
  · intro h i a ha
    have := h (.hit i)
    rw [filter_chunkAssignments args duts node (.hit i) i (by simp [owns, Col.dut?]), ha] at this
    simpa [owns, Col.dut?, active] using this
  · intro h c
    by_cases hc : ∀ j, c ≠ .hit j
    · apply passesCol_free
      intro s hs
      simp only [List.mem_filter, decide_eq_true_eq] at hs
      obtain ⟨a, i, beam, -, -, hm⟩ := chunkAssignments_mem args duts node s hs.1
      exact assignments_free node a beam i s.2 hm (by rw [hs.2]; exact hc)
    · push Not at hc
      obtain ⟨i, rfl⟩ := hc
      rw [filter_chunkAssignments args duts node (.hit i) i (by simp [owns, Col.dut?])]
      cases ha : duts[i]? with
      | none => trivial
      | some a => simpa [owns, Col.dut?, active] using h i a ha

/-- The value of a column after a chunk. -/
theorem rowSteps_col (args : Args) (duts : List Alignment) (node : Node α) (r : Row α) (c : Col) (i : Nat)
    (ho : ∀ k, k < duts.length → owns node k c = true → k = i) :
    (rowSteps args.toGlobal (chunkAssignments args duts node) r).pos c =
      match duts[i]? with
      | some a => if owns node i c && active node c then
          (r.pos c).map (((calls args).map fun beam => (a, colAssignment c a beam)).foldl fun q s => fn args.toGlobal s q)
        else r.pos c
      | none => r.pos c := by
  rw [rowSteps_pos]
  unfold along
  rw [filter_chunkAssignments args duts node c i ho]
  cases duts[i]? with
  | none => cases r.pos c <;> rfl
  | some a =>
    dsimp only
    split
    · rfl
    · cases r.pos c <;> rfl

theorem occurs_tracks (node : Node α) : occurs "Tracks" node.name = true ↔ IsTracks node := by
  unfold occurs IsTracks
  rw [decide_eq_true_eq]
  constructor
  · rintro ⟨a, b, h⟩; exact ⟨a, b, h.symm⟩
  · rintro ⟨a, b, h⟩; exact ⟨a, b, h.symm⟩

theorem occurs_dut_small : ∀ k < 10, ∀ i < 10,
    decide (("DUT" ++ toString i).toList <:+: ("Tracks_DUT" ++ toString k).toList) = decide (i = k) := by
  decide +kernel

theorem tracksOf_isTracks (node : Node α) (k : Nat) (h : TracksOf node k) : IsTracks node := by
  refine ⟨[], ("_DUT" ++ toString k).toList, ?_⟩
  rw [h]
  simp only [String.toList_append, List.nil_append]
  rfl

/-- In the track table of the DUT `k`, the track belongs to this DUT only. -/
theorem owns_track (node : Node α) (k n : Nat) (h : TracksOf node k) (hn : n ≤ 10) (hk : k < n) (c : Col) (hc : c.dut? = none) (i : Nat)
    (hi : i < n) : owns node i c = decide (i = k) := by
  unfold owns
  rw [hc]
  dsimp only
  rw [h]
  exact occurs_dut_small k (by omega) i (by omega)

end BTA.Apply
