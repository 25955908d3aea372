import Verif.Spec.Selection
import Verif.Spec.Tracks
import Verif.Lemmas.Chunks
/-
Lemmas about the model of `combine_files`.
-/
namespace BTA.Sel
open BTA.Spec
variable {N P : Type} [DecidableEq N]

/-- Effect of the offset on a row. -/
def shiftBy (offset : Option Int) (r : Row P) : Row P := r.shift (offset.getD 0)

theorem shift_zero (r : Row P) : r.shift 0 = r := by simp [Row.shift]

theorem shiftBy_some (o : Int) : (shiftBy (some o) : Row P → Row P) = fun r => r.shift o := rfl
theorem shiftBy_none : (shiftBy none : Row P → Row P) = id := by funext r; simp [shiftBy, shift_zero]

theorem chunk_shift (offset : Option Int) (chunk : List (Row P)) : addOffset offset chunk = chunk.map (shiftBy offset) := by
  unfold addOffset
  cases offset with
  | none => simp [shiftBy_none]
  | some o =>
    by_cases h : o = 0
    · subst h; simp [shiftBy_some, shift_zero]
    · simp [h, shiftBy_some]

theorem copyLoop_eq (rows : List (Row P)) (name : N) (offset : Option Int) (cs : Nat) (n i : Nat)
    (h1 : rows.length ≤ i + n * cs) (h2 : 0 < n → i + (n - 1) * cs < rows.length) (acc : List (Row P) × Option (N × Row P)) :
    copyLoop rows name offset cs ((List.range n).map fun k => i + k * cs) acc
      = (acc.1 ++ (rows.drop i).map (shiftBy offset),
         if n = 0 then acc.2 else rows.getLast?.map fun r => (name, shiftBy offset r)) := by
  induction n generalizing i acc with
  | zero => simp [copyLoop, List.drop_eq_nil_of_le (show rows.length ≤ i by omega)]
  | succ n ih =>
    rw [List.range_succ_eq_map, List.map_cons, List.map_map, copyLoop]
    simp only [chunk_shift, Nat.zero_mul, Nat.add_zero]
    have hidx : List.map ((fun k => i + k * cs) ∘ Nat.succ) (List.range n) = (List.range n).map fun k => (i + cs) + k * cs := by
      apply List.map_congr_left
      intro k _
      simp only [Function.comp, Nat.succ_mul]
      omega
    have hlt : i < rows.length := by
      have := h2 (by omega)
      omega
    rw [hidx, ih (i + cs) (by rw [Nat.succ_mul] at h1; omega) (by
      intro hn
      have := h2 (by omega)
      obtain ⟨m, rfl⟩ : ∃ m, n = m + 1 := ⟨n - 1, by omega⟩
      simp only [Nat.add_sub_cancel] at this ⊢
      rw [Nat.succ_mul] at this
      omega)]
    simp only [List.append_assoc, ← List.map_append, Nat.add_eq_zero_iff, Nat.one_ne_zero, and_false, if_false]
    congr 2
    · congr 1
      unfold readRows
      have : rows.drop i = ((rows.take (i + cs)) ++ rows.drop (i + cs)).drop i := by rw [List.take_append_drop]
      rw [this, List.drop_append]
      congr 1
      by_cases hle : i + cs ≤ rows.length
      · rw [List.length_take, Nat.min_eq_left hle, show i - (i + cs) = 0 by omega, List.drop_zero]
      · rw [List.drop_eq_nil_of_le (show rows.length ≤ i + cs by omega), List.drop_nil]
    · split
      · rename_i hn
        subst hn
        rw [List.getLast?_map]
        unfold readRows
        rw [List.take_of_length_le (by omega)]
        have : (rows.drop i).getLast? = rows.getLast? := by
          rw [List.getLast?_drop, if_neg (by omega)]
        rw [this]
        cases rows.getLast? <;> rfl
      · rfl

theorem copyLoop_read (rows : List (Row P)) (name : N) (offset : Option Int) (cs : Nat) (hcs : 0 < cs)
    (acc : List (Row P) × Option (N × Row P)) :
    copyLoop rows name offset cs (readIndices rows.length cs) acc
      = (acc.1 ++ rows.map (shiftBy offset),
         if rows = [] then acc.2 else rows.getLast?.map fun r => (name, shiftBy offset r)) := by
  have hn : rows.length ≤ (rows.length + cs - 1) / cs * cs := by
    have h1 := Nat.div_add_mod (rows.length + cs - 1) cs
    have h2 := Nat.mod_lt (rows.length + cs - 1) hcs
    rw [Nat.mul_comm] at h1
    omega
  have h := copyLoop_eq rows name offset cs ((rows.length + cs - 1) / cs) 0 (by omega) (by
    intro h0
    have h1 := Nat.div_mul_le_self (rows.length + cs - 1) cs
    rw [Nat.sub_mul]
    have : cs ≤ (rows.length + cs - 1) / cs * cs := Nat.le_mul_of_pos_left _ h0
    omega) acc
  simp only [Nat.zero_add] at h
  unfold readIndices
  rw [h, List.drop_zero]
  congr 1
  by_cases hr : rows = []
  · subst hr
    have : (0 + cs - 1) / cs = 0 := Nat.div_eq_of_lt (by omega)
    simp [this]
  · have : (rows.length + cs - 1) / cs ≠ 0 := by
      have : 0 < rows.length := List.length_pos_iff.mpr hr
      have := Nat.div_pos (show cs ≤ rows.length + cs - 1 by omega) hcs
      omega
    rw [if_neg this, if_neg hr]

/-- One table, without the loop over the chunks. -/
def tableStep (hasEvent : N → Bool) (names : Option (List N)) (manual : Option (List (Option Int))) (file : Nat) (t : Table N P)
    (s : CState N P) : Except CErr (CState N P) :=
  if Selected names t.name then
    let o := (s.out t.name).getD ⟨[], -1, []⟩
    if hasEvent t.name then
      match eventOffset manual file o.last with
      | .error e => .error e
      | .ok offset =>
        match (if t.rows = [] then s.chunk else t.rows.getLast?.map fun r => (t.name, shiftBy (some offset) r)) with
        | none => .error .unbound
        | some (n, row) =>
          if hasEvent n then
            .ok ⟨Function.update s.out t.name (some ⟨o.rows ++ t.rows.map (shiftBy (some offset)), row.event, o.offsets ++ [offset]⟩),
              some (n, row)⟩
          else .error .noField
    else
      .ok ⟨Function.update s.out t.name (some ⟨o.rows ++ t.rows.map (shiftBy none), o.last, o.offsets⟩),
        if t.rows = [] then s.chunk else t.rows.getLast?.map fun r => (t.name, shiftBy none r)⟩
  else .ok s

theorem selected_iff (names : Option (List N)) (n : N) :
    skipName names n = !decide (Selected names n) := by
  unfold skipName
  cases names with
  | none => simp [Selected]
  | some ns => simp [Selected]

theorem combineTable_eq (hasEvent : N → Bool) (names : Option (List N)) (manual : Option (List (Option Int))) (cs : Nat)
    (hcs : 0 < cs) (file : Nat) (t : Table N P) (s : CState N P) :
    combineTable hasEvent names manual cs file t s = tableStep hasEvent names manual file t s := by
  unfold combineTable tableStep
  rw [selected_iff]
  by_cases hsel : Selected names t.name
  · simp only [hsel, decide_true, Bool.not_true, Bool.false_eq_true, if_false, if_true]
    by_cases hev : hasEvent t.name = true
    · simp only [hev, if_true, show ¬ cs = 0 by omega, if_false, copyLoop_read _ _ _ cs hcs]
      cases eventOffset manual file ((s.out t.name).getD ⟨[], -1, []⟩).last with
      | error e => rfl
      | ok offset =>
        simp only []
        generalize (if t.rows = [] then s.chunk else t.rows.getLast?.map fun r => (t.name, shiftBy (some offset) r)) = x
        cases x <;> rfl
    · simp only [hev, if_false, show ¬ cs = 0 by omega, copyLoop_read _ _ _ cs hcs, Bool.false_eq_true]
  · simp [hsel]

/-- All tables of all files. -/
def runList (hasEvent : N → Bool) (names : Option (List N)) (manual : Option (List (Option Int))) :
    List (Nat × Table N P) → CState N P → Except CErr (CState N P)
  | [], s => .ok s
  | t :: rest, s =>
    match tableStep hasEvent names manual t.1 t.2 s with
    | .error e => .error e
    | .ok s => runList hasEvent names manual rest s

theorem runList_append (hasEvent : N → Bool) (names : Option (List N)) (manual : Option (List (Option Int)))
    (l l' : List (Nat × Table N P)) (s : CState N P) :
    runList hasEvent names manual (l ++ l') s =
      match runList hasEvent names manual l s with
      | .error e => .error e
      | .ok s => runList hasEvent names manual l' s := by
  induction l generalizing s with
  | nil => rfl
  | cons t l ih =>
    rw [List.cons_append, runList, runList]
    cases tableStep hasEvent names manual t.1 t.2 s with
    | error e => rfl
    | ok s => exact ih s

theorem combineTables_eq (hasEvent : N → Bool) (names : Option (List N)) (manual : Option (List (Option Int))) (cs : Nat)
    (hcs : 0 < cs) (file : Nat) (ts : List (Table N P)) (s : CState N P) :
    combineTables hasEvent names manual cs file ts s = runList hasEvent names manual (ts.map fun t => (file, t)) s := by
  induction ts generalizing s with
  | nil => rfl
  | cons t ts ih =>
    rw [combineTables, List.map_cons, runList, combineTable_eq hasEvent names manual cs hcs]
    simp only []
    cases tableStep hasEvent names manual file t s with
    | error e => rfl
    | ok s => exact ih s

theorem combineLoop_eq (hasEvent : N → Bool) (names : Option (List N)) (manual : Option (List (Option Int))) (cs : Nat)
    (hcs : 0 < cs) (file : Nat) (files : List (List (Table N P))) (s : CState N P) :
    combineLoop hasEvent names manual cs file files s =
      runList hasEvent names manual ((files.zipIdx file).flatMap fun f => f.1.map fun t => (f.2, t)) s := by
  induction files generalizing file s with
  | nil => rfl
  | cons f files ih =>
    rw [combineLoop, List.zipIdx_cons, List.flatMap_cons, runList_append, combineTables_eq hasEvent names manual cs hcs]
    simp only []
    cases runList hasEvent names manual (f.map fun t => (file, t)) s with
    | error e => rfl
    | ok s => exact ih (file + 1) s

theorem combineFiles_eq (hasEvent : N → Bool) (names : Option (List N)) (manual : Option (List (Option Int))) (cs : Nat)
    (hcs : 0 < cs) (files : List (List (Table N P))) :
    combineFiles hasEvent names manual cs files =
      match runList hasEvent names manual (allTables files) ⟨fun _ => none, none⟩ with
      | .error e => .error e
      | .ok s => .ok fun n => (s.out n).map fun o => (o.rows, o.offsets) := by
  unfold combineFiles allTables
  rw [combineLoop_eq hasEvent names manual cs hcs]
  cases runList hasEvent names manual (List.flatMap (fun f => List.map (fun t => (f.2, t)) f.1) files.zipIdx) _ <;> rfl

/-! ### Content of the output tables -/

/-- State of one output table after the tables `l` of this name. -/
def GoodOut (hasEvent : N → Bool) (names : Option (List N)) (manual : Option (List (Option Int))) (n : N)
    (l : List (Nat × Table N P)) (o : Option (OutTable P)) : Prop :=
  if Selected names n ∧ l ≠ [] then
    ∃ ot, o = some ot ∧
      if hasEvent n then
        ∃ bs : List ((Nat × Table N P) × Int), bs.map Prod.fst = l ∧ ot.offsets = bs.map Prod.snd ∧
          ot.rows = bs.flatMap (fun b => b.1.2.rows.map fun r => r.shift b.2) ∧
          ∀ b ∈ bs, ∀ x, manualOffset manual b.1.1 = some x → b.2 = x
      else ot.rows = l.flatMap (fun t => t.2.rows) ∧ ot.offsets = []
  else o = none

theorem eventOffset_manual {manual : Option (List (Option Int))} {file : Nat} {last off : Int}
    (h : eventOffset manual file last = .ok off) :
    (∀ x, manualOffset manual file = some x → off = x) ∧ (manualOffset manual file = none → off = last + 1) := by
  unfold eventOffset at h
  unfold manualOffset
  cases manual with
  | none => simp at h; simp [h.symm]
  | some l =>
    simp only [Option.bind_some] at h ⊢
    cases hl : l[file]? with
    | none => rw [hl] at h; cases h
    | some y =>
      rw [hl] at h
      cases y with
      | none => simp at h; simp [h.symm]
      | some z => simp at h; simp [h.symm]

theorem tableStep_good {hasEvent : N → Bool} {names : Option (List N)} {manual : Option (List (Option Int))}
    {L : List (Nat × Table N P)} {t : Nat × Table N P} {s s' : CState N P}
    (hs : ∀ n, GoodOut hasEvent names manual n (L.filter fun t => t.2.name = n) (s.out n))
    (h : tableStep hasEvent names manual t.1 t.2 s = .ok s') (n : N) :
    GoodOut hasEvent names manual n ((L ++ [t]).filter fun t => t.2.name = n) (s'.out n) := by
  rw [List.filter_append]
  unfold tableStep at h
  by_cases hsel : Selected names t.2.name
  · rw [if_pos hsel] at h
    by_cases hn : t.2.name = n
    · subst hn
      have hl : List.filter (fun t' : Nat × Table N P => decide (t'.2.name = t.2.name)) [t] = [t] := by simp
      rw [hl]
      have h0 := hs t.2.name
      unfold GoodOut at h0 ⊢
      rw [if_pos ⟨hsel, by simp⟩]
      by_cases hev : hasEvent t.2.name = true
      · simp only [hev, if_true] at h h0 ⊢
        generalize hl' : L.filter (fun t' : Nat × Table N P => decide (t'.2.name = t.2.name)) = l at *
        have hget : ∃ bs : List ((Nat × Table N P) × Int), bs.map Prod.fst = l ∧
            ((s.out t.2.name).getD ⟨[], -1, []⟩).offsets = bs.map Prod.snd ∧
            ((s.out t.2.name).getD ⟨[], -1, []⟩).rows = bs.flatMap (fun b => b.1.2.rows.map fun r => r.shift b.2) ∧
            ∀ b ∈ bs, ∀ x, manualOffset manual b.1.1 = some x → b.2 = x := by
          by_cases hne : l = []
          · rw [if_neg (by simp [hne])] at h0
            exact ⟨[], by simp [hne, h0]⟩
          · rw [if_pos ⟨hsel, hne⟩] at h0
            obtain ⟨ot, h1, h2⟩ := h0
            rw [h1]
            exact h2
        cases ho : eventOffset manual t.1 ((s.out t.2.name).getD ⟨[], -1, []⟩).last with
        | error e => rw [ho] at h; cases h
        | ok off =>
          rw [ho] at h
          simp only [] at h
          generalize (if t.2.rows = [] then s.chunk else t.2.rows.getLast?.map fun r => (t.2.name, shiftBy (some off) r)) = x at h
          cases x with
          | none => cases h
          | some x =>
            obtain ⟨m, row⟩ := x
            simp only [] at h
            split at h
            · cases h
              obtain ⟨bs, h1, h2, h3, h4⟩ := hget
              refine ⟨_, Function.update_self .., bs ++ [(t, off)], by simp [h1], by simp [h2], ?_, ?_⟩
              · simp [h3, shiftBy_some]
              · intro b hb x hx
                rcases List.mem_append.mp hb with hb | hb
                · exact h4 b hb x hx
                · obtain rfl : b = (t, off) := by simpa using hb
                  exact (eventOffset_manual ho).1 x hx
            · cases h
      · simp only [hev, if_false, Bool.false_eq_true] at h h0 ⊢
        cases h
        refine ⟨_, Function.update_self .., ?_⟩
        generalize hl' : L.filter (fun t' : Nat × Table N P => decide (t'.2.name = t.2.name)) = l at *
        by_cases hne : l = []
        · rw [if_neg (by simp [hne])] at h0
          simp [h0, hne, shiftBy_none]
        · rw [if_pos ⟨hsel, hne⟩] at h0
          obtain ⟨ot, h1, h2, h3⟩ := h0
          simp [h1, h2, h3, shiftBy_none]
    · have hl : List.filter (fun t' : Nat × Table N P => decide (t'.2.name = n)) [t] = [] := by simp [hn]
      rw [hl, List.append_nil]
      have hsame : s'.out n = s.out n := by
        by_cases hev : hasEvent t.2.name = true
        · simp only [hev, if_true] at h
          cases ho : eventOffset manual t.1 ((s.out t.2.name).getD ⟨[], -1, []⟩).last with
          | error e => rw [ho] at h; cases h
          | ok off =>
            rw [ho] at h
            simp only [] at h
            generalize (if t.2.rows = [] then s.chunk else t.2.rows.getLast?.map fun r => (t.2.name, shiftBy (some off) r)) = x at h
            cases x with
            | none => cases h
            | some x =>
              simp only [] at h
              split at h
              · cases h
                exact Function.update_of_ne (fun h' => hn h'.symm) _ _
              · cases h
        · simp only [hev, if_false, Bool.false_eq_true] at h
          cases h
          exact Function.update_of_ne (fun h' => hn h'.symm) _ _
      rw [hsame]
      exact hs n
  · rw [if_neg hsel] at h
    cases h
    have h0 := hs n
    by_cases hn : t.2.name = n
    · subst hn
      unfold GoodOut at h0 ⊢
      rw [if_neg (fun h => hsel h.1)] at h0 ⊢
      exact h0
    · have hl : List.filter (fun t' : Nat × Table N P => decide (t'.2.name = n)) [t] = [] := by simp [hn]
      rw [hl, List.append_nil]
      exact h0

theorem runList_good {hasEvent : N → Bool} {names : Option (List N)} {manual : Option (List (Option Int))}
    (L' : List (Nat × Table N P)) {L : List (Nat × Table N P)} {s s' : CState N P}
    (hs : ∀ n, GoodOut hasEvent names manual n (L.filter fun t => t.2.name = n) (s.out n))
    (h : runList hasEvent names manual L' s = .ok s') (n : N) :
    GoodOut hasEvent names manual n ((L ++ L').filter fun t => t.2.name = n) (s'.out n) := by
  induction L' generalizing L s with
  | nil =>
    rw [List.append_nil]
    cases h
    exact hs n
  | cons t L' ih =>
    rw [runList] at h
    cases ht : tableStep hasEvent names manual t.1 t.2 s with
    | error e => rw [ht] at h; cases h
    | ok s1 =>
      rw [ht] at h
      have := ih (L := L ++ [t]) (tableStep_good hs ht) h
      rwa [List.append_assoc, List.singleton_append] at this

/-! ### Disjoint events -/

/-- State of one output table if the offsets are generated. -/
def SepOut (n : N) (l : List (Nat × Table N P)) (o : Option (OutTable P)) : Prop :=
  if l ≠ [] then
    ∃ ot, o = some ot ∧ -1 ≤ ot.last ∧
      ∃ bs : List ((Nat × Table N P) × Int), bs.map Prod.fst = l ∧ ot.offsets = bs.map Prod.snd ∧
        (∀ b ∈ bs, ∀ r ∈ b.1.2.rows, r.event + b.2 ≤ ot.last) ∧ (bs.map Prod.snd).head? = some 0 ∧
        (∀ b ∈ bs, 0 ≤ b.2) ∧
        bs.Pairwise fun a b => ∀ r ∈ a.1.2.rows, ∀ r' ∈ b.1.2.rows, r.event + a.2 < r'.event + b.2
  else o = none

/-- The conditions on a table. -/
def GoodTable (rows : List (Row P)) : Prop := rows ≠ [] ∧ (∀ r ∈ rows, 0 ≤ r.event) ∧ SortedBy Row.event rows

theorem sorted_le_last {rows : List (Row P)} (hs : SortedBy Row.event rows) {x : Row P} (hx : rows.getLast? = some x) :
    ∀ r ∈ rows, r.event ≤ x.event := by
  obtain ⟨ys, rfl⟩ := List.getLast?_eq_some_iff.mp hx
  intro r hr
  rcases List.mem_append.mp hr with hr | hr
  · unfold SortedBy at hs
    rw [List.pairwise_append] at hs
    exact hs.2.2 r hr x (by simp)
  · obtain rfl : r = x := by simpa using hr
    exact Int.le_refl _

theorem tableStep_sep {hasEvent : N → Bool} {names : Option (List N)}
    {L : List (Nat × Table N P)} {t : Nat × Table N P} {s : CState N P}
    (hs : ∀ n, Selected names n → hasEvent n = true → SepOut n (L.filter fun t => t.2.name = n) (s.out n))
    (ht : Selected names t.2.name → hasEvent t.2.name = true → GoodTable t.2.rows) :
    ∃ s', tableStep hasEvent names none t.1 t.2 s = .ok s' ∧
      ∀ n, Selected names n → hasEvent n = true → SepOut n ((L ++ [t]).filter fun t => t.2.name = n) (s'.out n) := by
  have hother : ∀ n, t.2.name ≠ n → (L ++ [t]).filter (fun t => decide (t.2.name = n)) = L.filter fun t => decide (t.2.name = n) := by
    intro n hn
    rw [List.filter_append]
    simp [hn]
  unfold tableStep
  by_cases hsel : Selected names t.2.name
  · rw [if_pos hsel]
    by_cases hev : hasEvent t.2.name = true
    · obtain ⟨hne, hpos, hsort⟩ := ht hsel hev
      obtain ⟨x, hx⟩ : ∃ x, t.2.rows.getLast? = some x := ⟨_, List.getLast?_eq_some_getLast hne⟩
      have hle := sorted_le_last hsort hx
      simp only [hev, if_true, eventOffset, if_neg hne, hx, Option.map_some]
      refine ⟨_, rfl, fun n hn hevn => ?_⟩
      by_cases hnn : t.2.name = n
      · subst hnn
        have h0 := hs _ hn hevn
        rw [List.filter_append]
        have hl : List.filter (fun t' : Nat × Table N P => decide (t'.2.name = t.2.name)) [t] = [t] := by simp
        rw [hl]
        generalize hl' : L.filter (fun t' : Nat × Table N P => decide (t'.2.name = t.2.name)) = l at *
        unfold SepOut at h0 ⊢
        rw [if_pos (by simp)]
        simp only [Function.update_self]
        have hx0 := hpos x (List.mem_of_getLast? hx)
        by_cases hnil : l = []
        · subst hnil
          rw [if_neg (by simp)] at h0
          rw [h0]
          refine ⟨_, rfl, ?_, [(t, 0)], by simp, by simp, ?_, by simp, by simp, by simp⟩
          · simp only [Option.getD_none, shiftBy_some, Row.shift]; omega
          · intro b hb r hr
            obtain rfl : b = (t, 0) := by simpa using hb
            have := hle r hr
            simp only [Option.getD_none, shiftBy_some, Row.shift]; omega
        · rw [if_pos hnil] at h0
          obtain ⟨ot, h1, h2, bs, h3, h4, h5, h6, h6', h7⟩ := h0
          rw [h1]
          refine ⟨_, rfl, ?_, bs ++ [(t, ot.last + 1)], by simp [h3], by simp [h4], ?_, ?_, ?_, ?_⟩
          · simp only [Option.getD_some, shiftBy_some, Row.shift]; omega
          · intro b hb r hr
            simp only [Option.getD_some, shiftBy_some, Row.shift]
            rcases List.mem_append.mp hb with hb | hb
            · have := h5 b hb r hr; omega
            · obtain rfl : b = (t, ot.last + 1) := by simpa using hb
              have := hle r hr
              simp only []; omega
          · rw [List.map_append, List.head?_append, h6]; rfl
          · intro b hb
            rcases List.mem_append.mp hb with hb | hb
            · exact h6' b hb
            · obtain rfl : b = (t, ot.last + 1) := by simpa using hb
              simp only []; omega
          · rw [List.pairwise_append]
            refine ⟨h7, by simp, ?_⟩
            intro a ha b hb r hr r' hr'
            obtain rfl : b = (t, ot.last + 1) := by simpa using hb
            have := h5 a ha r hr
            have := hpos r' hr'
            simp only []; omega
      · rw [hother n hnn]
        simp only [Function.update_of_ne (fun h' => hnn h'.symm)]
        exact hs n hn hevn
    · simp only [hev, if_false, Bool.false_eq_true]
      refine ⟨_, rfl, fun n hn hevn => ?_⟩
      have hnn : t.2.name ≠ n := fun h => hev (h ▸ hevn)
      rw [hother n hnn]
      simp only [Function.update_of_ne (fun h' => hnn h'.symm)]
      exact hs n hn hevn
  · rw [if_neg hsel]
    refine ⟨s, rfl, fun n hn hevn => ?_⟩
    rw [hother n (fun h => hsel (h ▸ hn))]
    exact hs n hn hevn

theorem runList_sep {hasEvent : N → Bool} {names : Option (List N)} (L' : List (Nat × Table N P))
    {L : List (Nat × Table N P)} {s : CState N P}
    (hs : ∀ n, Selected names n → hasEvent n = true → SepOut n (L.filter fun t => t.2.name = n) (s.out n))
    (ht : ∀ t ∈ L', Selected names t.2.name → hasEvent t.2.name = true → GoodTable t.2.rows) :
    ∃ s', runList hasEvent names none L' s = .ok s' ∧
      ∀ n, Selected names n → hasEvent n = true → SepOut n ((L ++ L').filter fun t => t.2.name = n) (s'.out n) := by
  induction L' generalizing L s with
  | nil => exact ⟨s, rfl, by rwa [List.append_nil]⟩
  | cons t L' ih =>
    obtain ⟨s1, h1, h2⟩ := tableStep_sep hs (ht t (List.mem_cons_self ..))
    obtain ⟨s', h3, h4⟩ := ih (L := L ++ [t]) h2 (fun t' ht' => ht t' (List.mem_cons_of_mem _ ht'))
    refine ⟨s', ?_, ?_⟩
    · rw [runList, h1]; exact h3
    · rwa [List.append_assoc, List.singleton_append] at h4

end BTA.Sel
