import Verif.Lemmas.Converters
/-
C132: formatting a table of Mimosa26 hits; C133: which tables are accepted; C134: formatting a table of FE-I4 hits.
-/
namespace BTA.Converters.Props
open BTA.Converters BTA.Converters.Spec

theorem m26_names {input : Name} {outputs : List Name} {ids : List Nat} {names : List Name} (h : m26Names input outputs ids = .ok names) :
    names.length = ids.length ∧ (outputs = [] → names = ids.map (m26Name input)) ∧ (outputs ≠ [] → names = outputs) := by
  unfold m26Names at h
  cases outputs with
  | nil =>
    have := Except.ok.inj h
    subst this
    exact ⟨List.length_map _, fun _ => rfl, fun h => absurd rfl h⟩
  | cons o os =>
    dsimp only at h
    split_ifs at h with h1
    have := Except.ok.inj h
    subst this
    exact ⟨not_not.mp h1, fun h => absurd h (List.cons_ne_nil _ _), fun _ => rfl⟩

theorem format_names {R : Type} {event : R → Int} {write : List R → Store → Store} {rows : List R} {input : Name} {names : List Name}
    {chunk : Nat} {s : Store} {r : List Name} (h : (format event write rows input names chunk s).result = .ok r) : r = names ∧ names.Nodup := by
  unfold format at h
  dsimp only at h
  by_cases h1 : (openFiles [input] names s).2 = true
  · refine ⟨?_, ((openFiles_ok names [input] s).mp h1).1⟩
    split_ifs at h
    all_goals cases h
    rfl
  · rw [Bool.not_eq_true] at h1
    rw [h1] at h
    cases h

theorem m26Format_eq (h : M26Hit) (hc : h.column < 65535) (hr : h.row < 65535) : m26Format h = m26Hit h := by
  unfold m26Format m26Hit
  rw [Nat.mod_eq_of_lt (by omega), Nat.mod_eq_of_lt (by omega)]

/-- C132: a table that is formatted is split into one file for each header ID: the file has exactly the hits of that plane, in the order of
the table, with column and row counted from 1. The files are different from each other and from the input file; no other file changes. -/
theorem C132_planes (rows : List M26Hit) (input : Name) (outputs : List Name) (ids : List Nat) (chunk : Nat) (s : Store) (names : List Name)
    (h : (m26FormatTable rows input outputs ids chunk s).result = .ok names)
    (hcol : ∀ r ∈ rows, r.column < 65535 ∧ r.row < 65535) :
    names.length = ids.length ∧ (outputs ≠ [] → names = outputs) ∧ names.Nodup ∧ input ∉ names ∧
    (∀ (k : Nat) id n, ids[k]? = some id → names[k]? = some n →
      (m26FormatTable rows input outputs ids chunk s).store n = some ((hitsOfPlane rows id).map m26Hit)) ∧
    ∀ n, n ∉ names → (m26FormatTable rows input outputs ids chunk s).store n = s n := by
  unfold m26FormatTable at h ⊢
  cases hn : m26Names input outputs ids with
  | error e => rw [hn] at h; cases h
  | ok ns =>
    rw [hn] at h
    dsimp only at h ⊢
    obtain ⟨l1, _, l3⟩ := m26_names hn
    obtain ⟨hsame, hnd⟩ := format_names h
    subst hsame
    obtain ⟨_, ⟨w1, w2⟩, _, _, hs⟩ := format_ok (m26_writes (ids.zip names) (zip_snd_nodup ids names l1 hnd)) rows input names chunk s names h
    refine ⟨l1, l3, w1, w2, fun k id n h1 h2 => ?_, fun n hn' => ?_⟩
    · rw [hs n, if_pos (List.mem_of_getElem? h2)]
      congr 1
      unfold hitsOfPlane
      rw [List.filter_congr (q := fun h => h.plane == id) fun x _ => any_zip ids names hnd k id n h1 h2 x.plane]
      exact List.map_congr_left fun x hx => m26Format_eq x (hcol x (List.mem_of_mem_filter hx)).1 (hcol x (List.mem_of_mem_filter hx)).2
    · rw [hs n, if_neg hn']
      have : rows.filter (fun h => (ids.zip names).any fun q => decide (q.2 = n) && decide (h.plane = q.1)) = [] := by
        rw [List.filter_eq_nil_iff]
        intro x _ hx
        obtain ⟨q, hq, h3⟩ := List.any_eq_true.mp hx
        rw [Bool.and_eq_true, decide_eq_true_eq] at h3
        exact hn' (h3.1 ▸ (List.of_mem_zip hq).2)
      rw [this]
      simp

/-- C132: each hit of a selected plane is in exactly one place: all files together have as many hits as the table has for these planes. -/
theorem C132_complete (rows : List M26Hit) (input : Name) (outputs : List Name) (ids : List Nat) (chunk : Nat) (s : Store) (names : List Name)
    (h : (m26FormatTable rows input outputs ids chunk s).result = .ok names) (hcol : ∀ r ∈ rows, r.column < 65535 ∧ r.row < 65535)
    (hids : ids.Nodup) :
    (names.map fun n => (((m26FormatTable rows input outputs ids chunk s).store n).getD []).length).sum =
      (rows.filter fun r => decide (r.plane ∈ ids)).length := by
  obtain ⟨h1, _, _, _, h5, h0⟩ := C132_planes rows input outputs ids chunk s names h hcol
  have h6 : (names.map fun n => (((m26FormatTable rows input outputs ids chunk s).store n).getD []).length) =
      ids.map fun id => (hitsOfPlane rows id).length := by
    refine List.ext_getElem (by simp [h1]) fun k hk hk' => ?_
    rw [List.length_map] at hk hk'
    rw [List.getElem_map, List.getElem_map, h5 k ids[k] names[k] (List.getElem?_eq_getElem hk') (List.getElem?_eq_getElem hk)]
    simp
  rw [h6]
  clear h h0 h1 h5 h6
  unfold hitsOfPlane
  induction ids with
  | nil => simp
  | cons i is ih =>
    rw [List.nodup_cons] at hids
    rw [List.map_cons, List.sum_cons, ih hids.2]
    clear ih hcol
    induction rows with
    | nil => rfl
    | cons r rs ihr =>
      simp only [List.filter_cons, beq_iff_eq, decide_eq_true_eq, List.mem_cons]
      by_cases e : r.plane = i
      · have : r.plane ∉ is := e ▸ hids.1
        simp only [e, if_true, true_or, List.length_cons]
        rw [if_neg hids.1]
        simp only [beq_iff_eq, decide_eq_true_eq, List.mem_cons] at ihr
        omega
      · simp only [e, if_false, false_or]
        simp only [beq_iff_eq, decide_eq_true_eq, List.mem_cons] at ihr
        split_ifs
        · simp only [List.length_cons]
          omega
        · exact ihr

/-- C132: generated names are different for different header IDs and never the name of the input file. -/
theorem C132_names (input : Name) (ids : List Nat) (h : ids.Nodup) :
    ∃ names, m26Names input [] ids = .ok names ∧ names.length = ids.length ∧ names.Nodup ∧ input ∉ names :=
  ⟨_, rfl, List.length_map _, (generated_writable input ids h).1, (generated_writable input ids h).2⟩

/-- C132: the size of the chunks does not matter. -/
theorem C132_chunk_size (rows : List M26Hit) (input : Name) (outputs : List Name) (ids : List Nat) (chunk chunk' : Nat) (s : Store)
    (hc : 0 < chunk) (hc' : 0 < chunk') (names : List Name) (h : (m26FormatTable rows input outputs ids chunk s).result = .ok names) :
    m26FormatTable rows input outputs ids chunk' s = m26FormatTable rows input outputs ids chunk s := by
  unfold m26FormatTable at h ⊢
  cases hn : m26Names input outputs ids with
  | error e => rfl
  | ok ns =>
    rw [hn] at h
    dsimp only at h ⊢
    have hnd := (format_names h).2
    have hw := m26_writes (ids.zip ns) (zip_snd_nodup ids ns (m26_names hn).1 hnd)
    obtain ⟨e, w, _, d, hs⟩ := format_ok hw rows input ns chunk s names h
    subst e
    have h2 := (format_iff hw rows input names chunk' s).mpr ⟨w, hc', d⟩
    obtain ⟨_, _, _, _, hs'⟩ := format_ok hw rows input names chunk' s names h2
    have e1 : (format M26Hit.event (m26Write (ids.zip names)) rows input names chunk' s).store =
        (format M26Hit.event (m26Write (ids.zip names)) rows input names chunk s).store := by
      funext n
      rw [hs, hs']
    generalize format M26Hit.event (m26Write (ids.zip names)) rows input names chunk' s = o' at *
    generalize format M26Hit.event (m26Write (ids.zip names)) rows input names chunk s = o at *
    cases o
    cases o'
    simp_all

/-- C133, Mimosa26, true part: with file names that can be written (generated ones, for instance, see `C132_names`), exactly the tables are
accepted whose event numbers are not negative and do not decrease. Missing: event numbers close to the limits of 64 bit, see
`C133_overflow`. -/
theorem C133_m26_partial (rows : List M26Hit) (input : Name) (outputs : List Name) (ids : List Nat) (chunk : Nat) (s : Store)
    (hc : 0 < chunk) (names : List Name) (hn : m26Names input outputs ids = .ok names) (hw : Writable input names)
    (hr : InRange (rows.map M26Hit.event)) :
    (∃ ns, (m26FormatTable rows input outputs ids chunk s).result = .ok ns) ↔ FromZero (rows.map M26Hit.event) := by
  unfold m26FormatTable
  rw [hn]
  dsimp only
  have hwr := m26_writes (ids.zip names) (zip_snd_nodup ids names (m26_names hn).1 hw.1)
  rw [← decreases_fromZero _ hr]
  constructor
  · rintro ⟨ns, h⟩
    exact (format_ok hwr rows input names chunk s ns h).2.2.2.1
  · intro h
    exact ⟨names, (format_iff hwr rows input names chunk s).mpr ⟨hw, hc, h⟩⟩

/-- C133, FE-I4, true part. -/
theorem C133_fei4_partial (rows : List Fei4Hit) (input : Name) (output : Option Name) (chunk : Nat) (s : Store) (hc : 0 < chunk)
    (hw : output ≠ some input) (hr : InRange (rows.map Fei4Hit.event)) :
    (∃ ns, (fei4FormatTable rows input output chunk s).result = .ok ns) ↔ FromZero (rows.map Fei4Hit.event) := by
  unfold fei4FormatTable
  rw [← decreases_fromZero _ hr]
  constructor
  · rintro ⟨ns, h⟩
    exact (format_ok (fei4_writes _) rows input _ chunk s ns h).2.2.2.1
  · intro h
    refine ⟨_, (format_iff (fei4_writes _) rows input _ chunk s).mpr ⟨⟨List.nodup_singleton _, ?_⟩, hc, h⟩⟩
    rw [List.mem_singleton]
    cases output with
    | none => exact fun e => root_suffix_ne input '_' _ (by decide) e.symm
    | some o => exact fun e => hw (congrArg some e.symm)

/-- C133: the input file itself is refused as output file and is not changed. -/
theorem C133_input_file (rows : List Fei4Hit) (input : Name) (chunk : Nat) (s : Store) :
    fei4FormatTable rows input (some input) chunk s = ⟨s, .error .alreadyOpen⟩ := by
  unfold fei4FormatTable format
  simp [fei4Name, openFiles]

/-- C133: event numbers at the limits of 64 bit may decrease unnoticed, for any header IDs and chunk size. -/
theorem C133_overflow (input : Name) (ids : List Nat) (hids : ids.Nodup) (chunk : Nat) (hc : 0 < chunk) (s : Store) (plane : Nat) :
    ∃ rows : List M26Hit, ¬ FromZero (rows.map M26Hit.event) ∧ ∃ ns, (m26FormatTable rows input [] ids chunk s).result = .ok ns := by
  refine ⟨[⟨2 ^ 63 - 1, plane, 0, 0⟩, ⟨-2 ^ 63, plane, 0, 0⟩], fun h => ?_, ids.map (m26Name input), ?_⟩
  · have := h.1 (-2 ^ 63) (by simp)
    norm_num at this
  · have hw := generated_writable input ids hids
    exact (format_iff (m26_writes _ (zip_snd_nodup ids _ (List.length_map _) hw.1)) _ input _ chunk s).mpr ⟨hw, hc, by show decreases [0, 2 ^ 63 - 1, -2 ^ 63] = false; decide⟩

theorem fromZero_take {l : List Int} {i j : Nat} (h : i ≤ j) (hj : FromZero (l.take j)) : FromZero (l.take i) := by
  rw [fromZero_iff] at hj ⊢
  refine hj.sublist (List.Sublist.cons₂ _ ?_)
  rw [← Nat.min_eq_left h, ← List.take_take]
  exact List.take_sublist _ _

theorem first_decrease {l : List Int} (hr : InRange l) {i j : Nat} (h1 : decreases (0 :: l.take i) = false)
    (h2 : decreases (0 :: l.take j) = true) : ∃ m, FirstDecrease l m ∧ i ≤ m ∧ m < j := by
  have hr' (n : Nat) : InRange (l.take n) := fun e he => hr e (List.mem_of_mem_take he)
  rw [decreases_fromZero _ (hr' i)] at h1
  have h2 : ¬ FromZero (l.take j) := fun h => by
    rw [(decreases_fromZero _ (hr' j)).mpr h] at h2
    cases h2
  clear hr hr'
  classical
  have hex : ∃ n, ¬ FromZero (l.take n) := ⟨j, h2⟩
  have hm := Nat.find_spec hex
  have hle := Nat.find_min' hex h2
  have hlt : i < Nat.find hex := by
    by_contra h
    exact hm (fromZero_take (not_lt.mp h) h1)
  obtain ⟨m, hmm⟩ : ∃ m, Nat.find hex = m + 1 := ⟨Nat.find hex - 1, by omega⟩
  rw [hmm] at hm hle hlt
  have hfz : FromZero (l.take m) := not_not.mp (Nat.find_min hex (by omega : m < Nat.find hex))
  refine ⟨m, ⟨hfz, ?_, hm⟩, by omega, by omega⟩
  by_contra h
  rw [List.take_of_length_le (by omega)] at hm hfz
  exact hm hfz

/-- C133: if the event numbers are refused, the output files have been written nevertheless: they have the hits of the whole chunks before
the chunk with the first decrease. -/
theorem C133_refused (rows : List Fei4Hit) (input : Name) (output : Option Name) (chunk : Nat) (s : Store)
    (hr : InRange (rows.map Fei4Hit.event)) (h : (fei4FormatTable rows input output chunk s).result = .error .eventNumber) :
    ∃ m k, FirstDecrease (rows.map Fei4Hit.event) m ∧ k * chunk ≤ m ∧ m < (k + 1) * chunk ∧
      (fei4FormatTable rows input output chunk s).store (fei4Name input output) = some ((rows.take (k * chunk)).map fei4Hit) := by
  unfold fei4FormatTable at h ⊢
  obtain ⟨k, h1, h2, h3⟩ := format_refused (fei4_writes _) rows input _ chunk s h
  rw [List.map_take] at h1 h2
  obtain ⟨m, h4, h5, h6⟩ := first_decrease hr h1 h2
  refine ⟨m, k, h4, h5, h6, ?_⟩
  rw [h3 _ (List.mem_singleton.mpr rfl)]
  simp
  rfl

/-- C133: the tables written by a call that succeeds are ordered in the event number again. -/
theorem C133_sorted (rows : List M26Hit) (input : Name) (outputs : List Name) (ids : List Nat) (chunk : Nat) (s : Store) (names : List Name)
    (h : (m26FormatTable rows input outputs ids chunk s).result = .ok names) (hcol : ∀ r ∈ rows, r.column < 65535 ∧ r.row < 65535)
    (hr : InRange (rows.map M26Hit.event)) (hc : 0 < chunk) :
    ∀ n ∈ names, ∃ hits, (m26FormatTable rows input outputs ids chunk s).store n = some hits ∧ FromZero (hits.map Hit.event) := by
  obtain ⟨h1, _, h3, h4, h5, _⟩ := C132_planes rows input outputs ids chunk s names h hcol
  intro n hn
  obtain ⟨k, hk⟩ := List.mem_iff_getElem?.mp hn
  obtain ⟨hk', _⟩ := List.getElem?_eq_some_iff.mp hk
  refine ⟨_, h5 k ids[k] n (List.getElem?_eq_getElem (by omega)) hk, ?_⟩
  have hnames : m26Names input outputs ids = .ok names := by
    have h' := h
    unfold m26FormatTable at h'
    cases hn : m26Names input outputs ids with
    | error e => rw [hn] at h'; cases h'
    | ok ns =>
      rw [hn] at h'
      rw [(format_names h').1]
  have h7 := (C133_m26_partial rows input outputs ids chunk s hc names hnames ⟨h3, h4⟩ hr).mp ⟨_, h⟩
  rw [fromZero_iff] at h7 ⊢
  refine h7.sublist (List.Sublist.cons₂ _ ?_)
  rw [List.map_map]
  exact (List.filter_sublist).map _

/-- C134: formatting a table of FE-I4 hits keeps each hit in its place, with the relative BCID as frame and the time over threshold as
charge; only the output file changes. -/
theorem C134_hits (rows : List Fei4Hit) (input : Name) (output : Option Name) (chunk : Nat) (s : Store) (names : List Name)
    (h : (fei4FormatTable rows input output chunk s).result = .ok names) :
    ∃ n, names = [n] ∧ n ≠ input ∧ (∀ o, output = some o → n = o) ∧
      (fei4FormatTable rows input output chunk s).store n = some (rows.map fei4Hit) ∧
      ∀ m, m ≠ n → (fei4FormatTable rows input output chunk s).store m = s m := by
  unfold fei4FormatTable at h ⊢
  obtain ⟨h1, ⟨_, h2⟩, _, _, h5⟩ := format_ok (fei4_writes _) rows input _ chunk s names h
  refine ⟨fei4Name input output, h1, fun e => h2 (by rw [e]; exact List.mem_singleton.mpr rfl), ?_, ?_, ?_⟩
  · rintro o rfl
    rfl
  · rw [h5, if_pos (List.mem_singleton.mpr rfl)]
    simp
    exact fun _ _ => rfl
  · intro m hm
    rw [h5, if_neg (by rw [List.mem_singleton]; exact hm)]
    simp [hm]

/-- C134: the size of the chunks does not matter. -/
theorem C134_chunk_size (rows : List Fei4Hit) (input : Name) (output : Option Name) (chunk chunk' : Nat) (s : Store) (names : List Name)
    (hc' : 0 < chunk') (h : (fei4FormatTable rows input output chunk s).result = .ok names) :
    (fei4FormatTable rows input output chunk' s).result = .ok names ∧
      (fei4FormatTable rows input output chunk' s).store = (fei4FormatTable rows input output chunk s).store := by
  unfold fei4FormatTable at h ⊢
  obtain ⟨rfl, w, _, d, hs⟩ := format_ok (fei4_writes _) rows input _ chunk s names h
  have h2 := (format_iff (fei4_writes (fei4Name input output)) rows input _ chunk' s).mpr ⟨w, hc', d⟩
  obtain ⟨_, _, _, _, hs'⟩ := format_ok (fei4_writes _) rows input _ chunk' s _ h2
  exact ⟨h2, funext fun n => by rw [hs, hs']⟩

/-! ### Concrete cases -/

def exRows : List M26Hit := [⟨0, 1, 0, 5, ⟩, ⟨0, 2, 7, 7⟩, ⟨3, 1, 1151, 575⟩, ⟨3, 6, 0, 0⟩, ⟨4, 2, 1, 1⟩]

def exIn : Name := "run.1/raw.interpreted.h5".toList

/-- Two planes are selected, chunks of two rows; plane 6 is not selected. -/
example : (m26FormatTable exRows exIn [] [2, 1] 2 fun _ => none).result =
    .ok ["run.1/raw.interpreted_header_id_2.h5".toList, "run.1/raw.interpreted_header_id_1.h5".toList] := by decide +kernel

example : (m26FormatTable exRows exIn [] [2, 1] 2 fun _ => none).store "run.1/raw.interpreted_header_id_1.h5".toList =
    some [⟨0, 0, 1, 6, 0⟩, ⟨3, 0, 1152, 576, 0⟩] := by decide +kernel

example : (∀ r ∈ exRows, r.column < 65535 ∧ r.row < 65535) ∧ FromZero (exRows.map M26Hit.event) ∧ InRange (exRows.map M26Hit.event) := by
  refine ⟨by decide, (fromZero_iff _).mpr (by decide), ?_⟩
  unfold InRange
  decide

/-- The names of a hidden file and of a file in a directory with a dot. -/
example : splitRoot "dir.x/.hidden".toList = "dir.x/.hidden".toList ∧ splitRoot "dir.x/raw".toList = "dir.x/raw".toList ∧
    splitRoot "a.b.h5".toList = "a.b".toList := by decide +kernel

/-- The wrong order in the third chunk: the first two chunks have been written. -/
example : (fei4FormatTable [⟨1, 0, 1, 1, 5⟩, ⟨1, 3, 1, 2, 6⟩, ⟨2, 0, 80, 336, 14⟩, ⟨1, 0, 1, 1, 5⟩] "a.h5".toList none 2 fun _ => none).result =
      .error .eventNumber ∧
    (fei4FormatTable [⟨1, 0, 1, 1, 5⟩, ⟨1, 3, 1, 2, 6⟩, ⟨2, 0, 80, 336, 14⟩, ⟨1, 0, 1, 1, 5⟩] "a.h5".toList none 2 fun _ => none).store
      "a_formatted_fei4.h5".toList = some [⟨1, 0, 1, 1, 5⟩, ⟨1, 3, 1, 2, 6⟩] := by decide +kernel

end BTA.Converters.Props
