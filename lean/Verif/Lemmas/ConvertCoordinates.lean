import Verif.Spec.ConvertCoordinates
import Verif.Lemmas.Chunks
import Verif.Props.Dut
/-
Helper lemmas for `convert`.
-/
namespace BTA.Convert
open BTA.Dut BTA.Props BTA.Spec

variable {K : Type} [Field K] [LinearOrder K] [IsStrictOrderedRing K]

def localRow (d : Pixels K) (r : Row K) : Row K :=
  setLocal r (d.columnSize * (r.value "column" - (d.nColumns + 1) / 2), d.rowSize * (r.value "row" - (d.nRows + 1) / 2), 0)

omit [LinearOrder K] [IsStrictOrderedRing K] in
theorem zipWith_map_self {α β γ : Type} (f : α → β → γ) (g : α → β) (l : List α) :
    List.zipWith f l (l.map g) = l.map fun a => f a (g a) := by
  induction l with
  | nil => rfl
  | cons a l ih => simp [ih]

theorem chunkToLocal_iff (d : Pixels K) (names : List String) (c o : List (Row K)) :
    chunkToLocal d names c = .ok o ↔
      ("column" ∈ names ∧ "row" ∈ names) ∧ (∀ r ∈ c, OnSensor d r) ∧ o = c.map (localRow d) := by
  unfold chunkToLocal
  split
  · rename_i hn
    cases h : indexToLocal d (c.map fun r => (r.value "column", r.value "row")) with
    | error e =>
      simp only [reduceCtorEq, hn, true_and, false_iff, not_and, and_self]
      intro hs
      obtain ⟨-, p, hp, h2⟩ := (C34_index_error_iff d _ e).mp h
      obtain ⟨r, hr, rfl⟩ := List.mem_map.mp hp
      obtain ⟨a, b, c', d'⟩ := hs r hr
      dsimp only at h2
      rcases h2 with h2 | h2 | h2 | h2
      · exact absurd a (not_le.mpr h2)
      · exact absurd b (not_le.mpr h2)
      · exact absurd c' (not_le.mpr h2)
      · exact absurd d' (not_le.mpr h2)
    | ok ps =>
      have hp := C34_position d _ _ h
      have hs : ∀ r ∈ c, OnSensor d r := by
        intro r hr
        by_contra hcon
        have : indexToLocal d (c.map fun r => (r.value "column", r.value "row")) = .error .outOfLimits := by
          rw [C34_index_error_iff]
          refine ⟨rfl, _, List.mem_map.mpr ⟨r, hr, rfl⟩, ?_⟩
          dsimp only
          by_contra h3
          simp only [not_or, not_lt] at h3
          exact hcon ⟨h3.1, h3.2.1, h3.2.2.1, h3.2.2.2⟩
        rw [h] at this
        simp at this
      dsimp only
      rw [hp, List.map_map, zipWith_map_self]
      simp only [Except.ok.injEq, hn, hs, true_and, and_self]
      refine ⟨fun h => ⟨fun r hr => hs r hr, h.symm⟩, fun h => h.2.symm⟩
  · rename_i hn
    simp only [reduceCtorEq, false_iff]
    exact fun h => hn h.1

variable [FloorSemiring K]

def indexRow (d : Pixels K) (r : Row K) : Row K :=
  setIndex r (r.value "x" / d.columnSize + 1/2 + 1/2 * d.nColumns, r.value "y" / d.rowSize + 1/2 + 1/2 * d.nRows)

theorem chunkToIndex_iff (d : Pixels K) (names : List String) (c o : List (Row K)) :
    chunkToIndex d names c = .ok o ↔
      ("x" ∈ names ∧ "y" ∈ names) ∧ (∀ r ∈ c, PositionOnSensor d r) ∧ o = c.map (indexRow d) := by
  unfold chunkToIndex
  have hz : ∀ l : List K, (some [(0 : K)]) = some l → ∀ z ∈ l, |z| ≤ 1 / 10 ^ 8 := by
    intro l hl z hz
    injection hl with hl
    subst hl
    simp only [List.mem_singleton] at hz
    subst hz
    rw [abs_zero]
    positivity
  split
  · rename_i hn
    cases h : localToIndex d (c.map fun r => (r.value "x", r.value "y")) (some [0]) with
    | error e =>
      simp only [reduceCtorEq, hn, true_and, false_iff, not_and, and_self]
      intro hs
      rcases (C34_position_error_iff d _ _ e).mp h with ⟨-, l, hl, z, hzl, h1⟩ | ⟨-, -, p, hp, h2⟩
      · exact absurd (hz l hl z hzl) (not_le.mpr h1)
      · obtain ⟨r, hr, rfl⟩ := List.mem_map.mp hp
        obtain ⟨a, b⟩ := hs r hr
        rcases h2 with h2 | h2
        · exact absurd a (not_le.mpr h2)
        · exact absurd b (not_le.mpr h2)
    | ok ps =>
      have hs : ∀ r ∈ c, PositionOnSensor d r := by
        intro r hr
        by_contra hcon
        have : localToIndex d (c.map fun r => (r.value "x", r.value "y")) (some [0]) = .error .outOfLimits := by
          rw [C34_position_error_iff]
          refine Or.inr ⟨rfl, hz, _, List.mem_map.mpr ⟨r, hr, rfl⟩, ?_⟩
          dsimp only
          by_contra h3
          simp only [not_or, not_lt] at h3
          exact hcon ⟨h3.1, h3.2⟩
        rw [h] at this
        simp at this
      have hp : ps = (c.map fun r => (r.value "x", r.value "y")).map fun p =>
          (p.1 / d.columnSize + 1/2 + 1/2 * d.nColumns, p.2 / d.rowSize + 1/2 + 1/2 * d.nRows) := by
        unfold localToIndex at h
        split at h
        · split at h
          · injection h with h
            exact h.symm
          · simp at h
        · simp at h
      dsimp only
      rw [hp, List.map_map, zipWith_map_self]
      simp only [Except.ok.injEq, hn, true_and, and_self]
      refine ⟨fun h => ⟨fun r hr => hs r hr, h.symm⟩, fun h => h.2.symm⟩
  · rename_i hn
    simp only [reduceCtorEq, false_iff]
    exact fun h => hn h.1

/-- The columns a table needs, the condition on its rows and the rows of the new table. -/
def Needed (toLocal : Bool) (names : List String) : Prop :=
  if toLocal then "column" ∈ names ∧ "row" ∈ names else "x" ∈ names ∧ "y" ∈ names

def RowOk (toLocal : Bool) (d : Pixels K) (r : Row K) : Prop := if toLocal then OnSensor d r else PositionOnSensor d r

def newRow (toLocal : Bool) (d : Pixels K) (r : Row K) : Row K := if toLocal then localRow d r else indexRow d r

theorem convertChunk_iff (b : Bool) (d : Pixels K) (names : List String) (c o : List (Row K)) :
    convertChunk b d names c = .ok o ↔ Needed b names ∧ (∀ r ∈ c, RowOk b d r) ∧ o = c.map (newRow b d) := by
  cases b with
  | true => exact chunkToLocal_iff d names c o
  | false => exact chunkToIndex_iff d names c o

theorem chunkLoop_iff (b : Bool) (d : Pixels K) (names : List String) (cs : List (List (Row K))) (out : List (Row K)) :
    chunkLoop b d names cs = .ok out ↔
      (cs ≠ [] → Needed b names) ∧ (∀ r ∈ cs.flatten, RowOk b d r) ∧ out = cs.flatten.map (newRow b d) := by
  induction cs generalizing out with
  | nil => simp [chunkLoop, eq_comm]
  | cons c cs ih =>
    rw [chunkLoop]
    cases h : convertChunk b d names c with
    | error e =>
      simp only [reduceCtorEq, false_iff]
      rintro ⟨h1, h2, -⟩
      have := (convertChunk_iff b d names c _).mpr ⟨h1 (by simp), fun r hr => h2 r (by simp [hr]), rfl⟩
      rw [h] at this
      simp at this
    | ok o =>
      obtain ⟨h1, h2, rfl⟩ := (convertChunk_iff b d names c o).mp h
      dsimp only
      cases h' : chunkLoop b d names cs with
      | error e =>
        simp only [reduceCtorEq, false_iff]
        rintro ⟨-, g2, -⟩
        have := (ih _).mpr ⟨fun _ => h1, fun r hr => g2 r (by
          rw [List.flatten_cons]; exact List.mem_append_right _ hr), rfl⟩
        rw [h'] at this
        simp at this
      | ok os =>
        obtain ⟨g1, g2, rfl⟩ := (ih os).mp h'
        simp only [Except.ok.injEq, List.flatten_cons, List.map_append, List.mem_append, ne_eq, reduceCtorEq, not_false_eq_true,
          forall_const]
        constructor
        · intro h; exact ⟨h1, fun r hr => hr.elim (h2 r) (g2 r), h.symm⟩
        · intro h; exact h.2.2.symm

theorem flatten_map_fst {α β : Type} (l : List (List α × β)) : (l.map Prod.fst).flatten = l.flatMap Prod.fst := by
  rw [List.flatMap_def]

/-- A successful conversion of a sorted table. -/
theorem convertTable_ok (b : Bool) (cs : Nat) (hcs : 0 < cs) (d : Pixels K) (t t' : Table K) (hs : SortedBy Row.event t.rows)
    (h : convertTable b cs d t = .ok t') :
    (outNames b t.names).Nodup ∧ (t.rows ≠ [] → Needed b t.names) ∧ (∀ r ∈ t.rows, RowOk b d r) ∧
    t'.names = outNames b t.names ∧ t'.rows = t.rows.map (newRow b d) := by
  unfold convertTable at h
  split at h
  · rename_i hn
    split at h
    · simp at h
    · rename_i rows hr
      split at h
      · simp at h
      · rename_i he
        injection h with h
        subst h
        obtain ⟨-, -, h3⟩ := chunks_default hs cs hcs
        rcases h3 with ⟨h3, -⟩ | ⟨-, h3⟩
        · rw [he] at h3; simp at h3
        · obtain ⟨g1, g2, g3⟩ := (chunkLoop_iff b d t.names _ rows).mp hr
          rw [flatten_map_fst, h3] at g2 g3
          refine ⟨hn, fun hne => g1 ?_, g2, rfl, g3⟩
          intro hnil
          rw [List.map_eq_nil_iff] at hnil
          rw [hnil] at h3
          exact hne h3.symm
  · simp at h

/-- And when it succeeds. -/
theorem convertTable_exists (b : Bool) (cs : Nat) (d : Pixels K) (t : Table K) (hs : SortedBy Row.event t.rows)
    (hm : ∀ e, BTA.Spec.multiplicity Row.event t.rows e < cs) (hn : (outNames b t.names).Nodup)
    (h1 : t.rows ≠ [] → Needed b t.names) (h2 : ∀ r ∈ t.rows, RowOk b d r) :
    convertTable b cs d t = .ok { names := outNames b t.names, rows := t.rows.map (newRow b d) } := by
  have hcs : 0 < cs := by have := hm 0; omega
  obtain ⟨-, hi, h3⟩ := chunks_default hs cs hcs
  rcases h3 with ⟨-, e, he⟩ | ⟨h3, h4⟩
  · exact absurd (hm e) (by omega)
  · have := (chunkLoop_iff b d t.names ((dataAligned Row.event t.rows { chunkSize := cs }).items.map Prod.fst)
      (t.rows.map (newRow b d))).mpr ⟨?_, ?_, ?_⟩
    · unfold convertTable
      rw [if_pos hn, this]
      dsimp only
      rw [h3]
    · intro hne
      apply h1
      intro hnil
      apply hne
      replace h4 := h4.trans hnil
      cases hg : (dataAligned Row.event t.rows { chunkSize := cs }).items with
      | nil => rfl
      | cons p l =>
        obtain ⟨c, idx⟩ := p
        rw [hg] at hi h4
        obtain ⟨-, hc, -⟩ := hi
        simp only [List.flatMap_cons, List.append_eq_nil_iff] at h4
        exact absurd h4.1 hc
    · rw [flatten_map_fst, h4]; exact h2
    · rw [flatten_map_fst, h4]

omit [IsStrictOrderedRing K] in
/-- The loop over the files when no output file is given, the new files being distinct and different from the old ones. -/
theorem convertLoop_ok (stem : String → String) (b : Bool) (cs : Nat) (ds : List (Pixels K)) (fs fs' : Files K) (is ns : List String)
    (hlen : ds.length ≤ is.length) (hout : ∀ i ∈ is, ∀ j ∈ is, stem i ++ suffix b ≠ j)
    (hnd : (is.map fun i => stem i ++ suffix b).Nodup)
    (h : convertLoop stem b cs ds fs is (is.map fun _ => none) = .ok (fs', ns)) :
    ns = (is.take ds.length).map (fun i => stem i ++ suffix b) ∧ (∀ n, n ∉ ns → fs' n = fs n) ∧
    ∀ (k : Nat) d i, ds[k]? = some d → is[k]? = some i →
      ∃ t t', fs i = some t ∧ convertTable b cs d t = .ok t' ∧ fs' (stem i ++ suffix b) = some t' := by
  induction ds generalizing fs is ns with
  | nil =>
    rw [convertLoop] at h
    injection h with h
    injection h with h1 h2
    subst h1; subst h2
    simp
  | cons d ds ih =>
    cases is with
    | nil => simp at hlen
    | cons i is =>
      rw [List.map_cons, convertLoop] at h
      unfold convertCoordinates convertTo at h
      dsimp only at h
      cases ht : fs i with
      | none => rw [ht] at h; simp at h
      | some t =>
        rw [ht] at h
        dsimp only at h
        cases hc : convertTable b cs d t with
        | error e => rw [hc] at h; simp at h
        | ok t' =>
          rw [hc] at h
          dsimp only at h
          generalize hw : write fs (stem i ++ suffix b) t' = fs1 at h
          cases hl : convertLoop stem b cs ds fs1 is (is.map fun _ => none) with
          | error e => rw [hl] at h; simp at h
          | ok q =>
            obtain ⟨fs2, ns2⟩ := q
            rw [hl] at h
            dsimp only at h
            injection h with h
            injection h with h1 h2
            subst h1; subst h2
            rw [List.map_cons, List.nodup_cons] at hnd
            obtain ⟨g1, g2, g3⟩ := ih fs1 is ns2 (by simpa using hlen)
              (fun a ha b' hb => hout a (List.mem_cons_of_mem _ ha) b' (List.mem_cons_of_mem _ hb)) hnd.2 hl
            have hni : stem i ++ suffix b ∉ ns2 := by
              intro hm
              rw [g1] at hm
              obtain ⟨j, hj, hje⟩ := List.mem_map.mp hm
              exact hnd.1 (List.mem_map.mpr ⟨j, List.mem_of_mem_take hj, hje⟩)
            refine ⟨by simp [g1], ?_, ?_⟩
            · intro n hn
              rw [List.mem_cons, not_or] at hn
              rw [g2 n hn.2, ← hw]
              simp [write, hn.1]
            · intro k d' i' hk hi
              cases k with
              | zero =>
                simp only [List.getElem?_cons_zero, Option.some.injEq] at hk hi
                subst hk; subst hi
                refine ⟨t, t', ht, hc, ?_⟩
                rw [g2 _ hni, ← hw]
                simp [write]
              | succ k =>
                rw [List.getElem?_cons_succ] at hk hi
                obtain ⟨a, a', ha, hb, hc'⟩ := g3 k d' i' hk hi
                refine ⟨a, a', ?_, hb, hc'⟩
                rw [← ha, ← hw]
                have := hout i (by simp) i' (List.mem_cons_of_mem _ (List.mem_of_getElem? hi))
                simp [write, Ne.symm this]

omit [IsStrictOrderedRing K] in
theorem convertLoop_exists (stem : String → String) (b : Bool) (cs : Nat) (ds : List (Pixels K)) (fs : Files K) (is : List String)
    (hlen : ds.length ≤ is.length) (hout : ∀ i ∈ is, ∀ j ∈ is, stem i ++ suffix b ≠ j)
    (hok : ∀ (k : Nat) d i, ds[k]? = some d → is[k]? = some i → ∃ t t', fs i = some t ∧ convertTable b cs d t = .ok t') :
    ∃ fs' ns, convertLoop stem b cs ds fs is (is.map fun _ => none) = .ok (fs', ns) := by
  induction ds generalizing fs is with
  | nil => exact ⟨fs, [], by rw [convertLoop]⟩
  | cons d ds ih =>
    cases is with
    | nil => simp at hlen
    | cons i is =>
      obtain ⟨t, t', ht, hc⟩ := hok 0 d i rfl rfl
      obtain ⟨fs2, ns2, h2⟩ := ih (write fs (stem i ++ suffix b) t') is (by simpa using hlen)
        (fun a ha b' hb => hout a (List.mem_cons_of_mem _ ha) b' (List.mem_cons_of_mem _ hb)) (by
          intro k d' i' hk hi
          obtain ⟨a, a', ha, hb⟩ := hok (k + 1) d' i' (by simpa using hk) (by simpa using hi)
          refine ⟨a, a', ?_, hb⟩
          have := hout i (by simp) i' (List.mem_cons_of_mem _ (List.mem_of_getElem? hi))
          simp [write, Ne.symm this, ha])
      refine ⟨fs2, (stem i ++ suffix b) :: ns2, ?_⟩
      rw [List.map_cons, convertLoop]
      unfold convertCoordinates convertTo
      dsimp only
      rw [ht]
      dsimp only
      rw [hc]
      dsimp only
      rw [h2]

/-- With an increasing selection the selected DUTs are those of the list, in its order. -/
theorem selectedFrom_sorted {D : Type} (k : Nat) (telescope : List D) (sel : List Int) (hs : sel.Pairwise (· < ·))
    (hr : ∀ s ∈ sel, (k : Int) ≤ s ∧ s < k + telescope.length) :
    (((telescope.zipIdx k).filter fun p => (p.2 : Int) ∈ sel).map Prod.fst).map some =
      sel.map fun s => telescope[(s - (k : Int)).toNat]? := by
  induction telescope generalizing k sel with
  | nil =>
    cases sel with
    | nil => rfl
    | cons s sel =>
      have := hr s (by simp)
      simp at this
      omega
  | cons d ds ih =>
    rw [List.zipIdx_cons]
    by_cases hk : (k : Int) ∈ sel
    · cases sel with
      | nil => simp at hk
      | cons s sel =>
        rw [List.pairwise_cons] at hs
        have hsk : s = k := by
          rcases List.mem_cons.mp hk with h | h
          · exact h.symm
          · have h1 := hs.1 _ h
            have h2 := (hr s (by simp)).1
            omega
        subst hsk
        rw [List.filter_cons_of_pos (by simp)]
        have hne : ∀ p ∈ ds.zipIdx (k + 1), (decide ((p.2 : Int) ∈ (k : Int) :: sel)) = decide ((p.2 : Int) ∈ sel) := by
          intro p hp
          have := (List.mem_zipIdx hp).1
          have h3 : (p.2 : Int) ≠ k := by omega
          simp [h3]
        rw [List.filter_congr hne]
        have hsel : ∀ s ∈ sel, ((k + 1 : Nat) : Int) ≤ s ∧ s < (k + 1 : Nat) + ds.length := by
          intro s hsm
          have h1 := hs.1 _ hsm
          have h2 := (hr s (List.mem_cons_of_mem _ hsm)).2
          rw [List.length_cons] at h2
          push_cast at h2 ⊢
          omega
        have := ih (k + 1) sel hs.2 hsel
        rw [List.map_cons, List.map_cons, this, List.map_cons]
        congr 1
        · simp
        · refine List.map_congr_left fun s hsm => ?_
          have h1 := (hsel s hsm).1
          have e : (s - (k : Int)).toNat = (s - ((k + 1 : Nat) : Int)).toNat + 1 := by push_cast at h1 ⊢; omega
          rw [e, List.getElem?_cons_succ]
    · rw [List.filter_cons_of_neg (by simpa using hk)]
      have hsel : ∀ s ∈ sel, ((k + 1 : Nat) : Int) ≤ s ∧ s < (k + 1 : Nat) + ds.length := by
        intro s hsm
        have h1 := hr s hsm
        have h2 : s ≠ k := fun h => hk (h ▸ hsm)
        rw [List.length_cons] at h1
        push_cast at h1 ⊢
        omega
      rw [ih (k + 1) sel hs hsel]
      refine List.map_congr_left fun s hsm => ?_
      have h1 := (hsel s hsm).1
      have e : (s - (k : Int)).toNat = (s - ((k + 1 : Nat) : Int)).toNat + 1 := by push_cast at h1 ⊢; omega
      rw [e, List.getElem?_cons_succ]

theorem selected_length {D : Type} (k : Nat) (telescope : List D) (sel : List Int) :
    ((telescope.zipIdx k).filter fun p => (p.2 : Int) ∈ sel).length =
      ((List.range' k telescope.length).filter fun i : Nat => (i : Int) ∈ sel).length := by
  induction telescope generalizing k with
  | nil => rfl
  | cons d ds ih =>
    rw [List.zipIdx_cons, List.length_cons, List.range'_succ, List.filter_cons, List.filter_cons]
    by_cases hk : (k : Int) ∈ sel
    · simp only [hk, decide_true, if_true, List.length_cons]
      rw [ih]
    · simp only [hk, decide_false, Bool.false_eq_true, if_false]
      exact ih (k + 1)

/-- There are never more different DUTs than entries in the list; fewer if an entry is no DUT or occurs twice. -/
theorem distinct_le (n : Nat) (sel : List Int) : ((List.range' 0 n).filter fun i : Nat => (i : Int) ∈ sel).length ≤ sel.length := by
  have h1 : (((List.range' 0 n).filter fun i : Nat => (i : Int) ∈ sel).map fun i : Nat => (i : Int)).Nodup := by
    refine List.Nodup.map (fun a b h => by simpa using h) ?_
    exact List.Nodup.filter _ List.nodup_range'
  have h2 : (((List.range' 0 n).filter fun i : Nat => (i : Int) ∈ sel).map fun i : Nat => (i : Int)) ⊆ sel := by
    intro s hs
    obtain ⟨i, hi, rfl⟩ := List.mem_map.mp hs
    simpa using (List.mem_filter.mp hi).2
  have := (List.subperm_of_subset h1 h2).length_le
  simpa using this

theorem distinct_eq (n : Nat) (sel : List Int) (h : ((List.range' 0 n).filter fun i : Nat => (i : Int) ∈ sel).length = sel.length) :
    sel.Nodup ∧ ∀ s ∈ sel, 0 ≤ s ∧ s < n := by
  have h1 : (((List.range' 0 n).filter fun i : Nat => (i : Int) ∈ sel).map fun i : Nat => (i : Int)).Nodup := by
    refine List.Nodup.map (fun a b h => by simpa using h) ?_
    exact List.Nodup.filter _ List.nodup_range'
  have h2 : (((List.range' 0 n).filter fun i : Nat => (i : Int) ∈ sel).map fun i : Nat => (i : Int)) ⊆ sel := by
    intro s hs
    obtain ⟨i, hi, rfl⟩ := List.mem_map.mp hs
    simpa using (List.mem_filter.mp hi).2
  have hp := (List.subperm_of_subset h1 h2).perm_of_length_le (by simp [h])
  refine ⟨hp.nodup_iff.mp h1, ?_⟩
  intro s hs
  obtain ⟨i, hi, rfl⟩ := List.mem_map.mp (hp.mem_iff.mpr hs)
  have := (List.mem_filter.mp hi).1
  rw [List.mem_range'] at this
  obtain ⟨a, ha, rfl⟩ := this
  constructor <;> omega

end BTA.Convert
