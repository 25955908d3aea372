import Verif.Lemmas.SaveArguments
import Verif.Props.FitArgs
/-
Properties of the record of arguments: C155 - C157.
-/
namespace BTA.Save.Props
open BTA.Save BTA.Save.Spec

variable {M V : Type}

/-! ### C155 -/

/-- C155: a call that returns leaves in every output file the table "arguments/<name of the function>" with a line for each value that was
given, in the order of the call, and none for the others; the text of name and value is cut after 256 and 32768 characters. The result is
that of the function. -/
theorem C155_recorded (c : Clock) (str : M → V → Text) (f : Func M V) (time : Nat) (args : List V) (kwargs : List (Text × V)) (w w1 : World M)
    (r : Ret) (hrun : f.run args kwargs w = (w1, .ok r)) (hb : Binds f.parameters args kwargs) (paths : List Text) (hp : Stands w1 r paths)
    (hf : ∀ p ∈ paths, ∃ h, w1.fs p = some (.h5 h)) (hk : ∀ e ∈ given f.parameters args kwargs, IsAscii e.1 ∧ IsAscii (str w1.mem e.2)) :
    (wrapper c str f time args kwargs w).2 = .ok r ∧
    ∀ p ∈ paths, record (wrapper c str f time args kwargs w).1 p f.name =
      some ⟨(given f.parameters args kwargs).map fun e => (column 256 e.1, column 32768 (str w1.mem e.2)), some (c.local_ time)⟩ := by
  unfold wrapper
  rw [hrun]
  dsimp only
  rw [outputFiles_stands hp, allKwargs_given hb]
  have ha : ∀ e ∈ (given f.parameters args kwargs).map fun e => (e.1, str w1.mem e.2), IsAscii e.1 ∧ IsAscii e.2 := by
    intro e he
    obtain ⟨e', he', rfl⟩ := List.mem_map.mp he
    exact hk e' he'
  obtain ⟨h1, h2⟩ := saveAll_ok c f.name _ (.seconds time) ha paths w1 hf
  revert h1 h2
  cases saveAll c f.name _ (.seconds time) paths w1 with
  | mk w2 e =>
    intro h1 h2
    dsimp only at h1 h2
    subst h1
    refine ⟨rfl, fun p hpp => ?_⟩
    rw [h2 p (.inl hpp) (hf p hpp)]
    unfold lines dateOf
    rw [List.map_map]
    rfl

/-- C155: whether the call returns or raises, nothing but the tables "arguments/<name of the function>" of the output files differs from what
the function alone has done; and the call returns only what the function returns. -/
theorem C155_nothing_else (c : Clock) (str : M → V → Text) (f : Func M V) (time : Nat) (args : List V) (kwargs : List (Text × V))
    (w : World M) :
    (∀ e, (f.run args kwargs w).2 = .error e → wrapper c str f time args kwargs w = ((f.run args kwargs w).1, .error .func)) ∧
    (∀ r, (wrapper c str f time args kwargs w).2 = .ok r → (f.run args kwargs w).2 = .ok r) ∧
    (∀ r, (f.run args kwargs w).2 = .ok r → ∀ paths, Stands (f.run args kwargs w).1 r paths →
      OnlyRecords (f.run args kwargs w).1 (wrapper c str f time args kwargs w).1 paths f.name) ∧
    (∀ r, (f.run args kwargs w).2 = .ok r → (∀ paths, Stands (f.run args kwargs w).1 r paths → paths = []) →
      wrapper c str f time args kwargs w = ((f.run args kwargs w).1, .ok r)) := by
  unfold wrapper
  cases hrun : f.run args kwargs w with
  | mk w1 x =>
    dsimp only
    cases x with
    | error e =>
      refine ⟨fun _ _ => rfl, ?_, ?_, ?_⟩ <;> intro r h <;> cases h
    | ok r =>
      dsimp only
      refine ⟨fun e h => (by cases h), fun r' h => ?_, fun r' h paths hp => ?_, fun r' h hp => ?_⟩
      · revert h
        cases saveAll c f.name _ (.seconds time) (outputFiles w1 r) w1 with
        | mk w2 e =>
          cases e with
          | none =>
            intro h
            injection h with h
            rw [h]
          | some e =>
            intro h
            cases h
      · injection h with h
        subst h
        rw [outputFiles_stands hp]
        have := saveAll_only c f.name ((allKwargs f.parameters args kwargs).map fun e => (e.1, str w1.mem e.2)) (.seconds time) paths w1
          (stands_exists hp)
        revert this
        cases saveAll c f.name _ (.seconds time) paths w1 with
        | mk w2 e =>
          cases e <;> exact fun h => h
      · injection h with h
        subst h
        rw [outputFiles_nil hp]
        rfl

/-- C155: the call raises after the function has returned exactly if there is an output file that is not a pytables file, or a name or a value
that is not ASCII. -/
theorem C155_returns (c : Clock) (str : M → V → Text) (f : Func M V) (time : Nat) (args : List V) (kwargs : List (Text × V)) (w w1 : World M)
    (r : Ret) (hrun : f.run args kwargs w = (w1, .ok r)) (hb : Binds f.parameters args kwargs) (paths : List Text) (hp : Stands w1 r paths)
    (hne : paths ≠ []) :
    (wrapper c str f time args kwargs w).2 = .ok r ↔
      (∀ p ∈ paths, ∃ h, w1.fs p = some (.h5 h)) ∧ ∀ e ∈ given f.parameters args kwargs, IsAscii e.1 ∧ IsAscii (str w1.mem e.2) := by
  constructor
  · intro h
    unfold wrapper at h
    rw [hrun] at h
    dsimp only at h
    rw [outputFiles_stands hp, allKwargs_given hb] at h
    have key := saveAll_none c f.name ((given f.parameters args kwargs).map fun e => (e.1, str w1.mem e.2)) (.seconds time) paths w1
      (stands_exists hp)
    have hn : (saveAll c f.name ((given f.parameters args kwargs).map fun e => (e.1, str w1.mem e.2)) (.seconds time) paths w1).2 = none := by
      revert h
      cases saveAll c f.name ((given f.parameters args kwargs).map fun e => (e.1, str w1.mem e.2)) (.seconds time) paths w1 with
      | mk w2 e =>
        cases e with
        | none => exact fun _ => rfl
        | some e => intro h; cases h
    obtain ⟨h1, h2⟩ := key hn hne
    exact ⟨h2, fun e he => h1 (e.1, str w1.mem e.2) (List.mem_map.mpr ⟨e, he, rfl⟩)⟩
  · rintro ⟨h1, h2⟩
    exact (C155_recorded c str f time args kwargs w w1 r hrun hb paths hp h1 h2).1

/-! ### C156 -/

/-- C156: the record is that of the values the caller has given, if the function does not change them, the texts are not too long and
have ASCII characters only.

What is missing for the full statement: `C156_long`, `C156_changed`, `C156_not_ascii`. -/
theorem C156_given_partial (c : Clock) (str : M → V → Text) (f : Func M V) (time : Nat) (args : List V) (kwargs : List (Text × V))
    (w w1 : World M) (r : Ret) (hrun : f.run args kwargs w = (w1, .ok r)) (hb : Binds f.parameters args kwargs) (paths : List Text)
    (hp : Stands w1 r paths) (hf : ∀ p ∈ paths, ∃ h, w1.fs p = some (.h5 h))
    (hs : ∀ e ∈ given f.parameters args kwargs, str w1.mem e.2 = str w.mem e.2)
    (hk : ∀ e ∈ given f.parameters args kwargs, IsAscii e.1 ∧ Fits 256 e.1 ∧ IsAscii (str w.mem e.2) ∧ Fits 32768 (str w.mem e.2)) :
    (wrapper c str f time args kwargs w).2 = .ok r ∧
    ∀ p ∈ paths, ∃ t, record (wrapper c str f time args kwargs w).1 p f.name = some t ∧
      t.rows = (given f.parameters args kwargs).map fun e => (e.1, str w.mem e.2) := by
  obtain ⟨h1, h2⟩ := C155_recorded c str f time args kwargs w w1 r hrun hb paths hp hf fun e he => ⟨(hk e he).1, by
    rw [hs e he]; exact (hk e he).2.2.1⟩
  refine ⟨h1, fun p hpp => ⟨_, h2 p hpp, ?_⟩⟩
  dsimp only
  refine List.map_congr_left fun e he => ?_
  rw [hs e he, column_fits (hk e he).2.1, column_fits (hk e he).2.2.2]

/-- C156: the text of a value with more than 32768 characters, e.g. of a long list, is never in the record. -/
theorem C156_long (c : Clock) (str : M → V → Text) (f : Func M V) (time : Nat) (args : List V) (kwargs : List (Text × V)) (w w1 : World M)
    (r : Ret) (hrun : f.run args kwargs w = (w1, .ok r)) (hb : Binds f.parameters args kwargs) (paths : List Text) (hp : Stands w1 r paths)
    (hf : ∀ p ∈ paths, ∃ h, w1.fs p = some (.h5 h)) (hk : ∀ e ∈ given f.parameters args kwargs, IsAscii e.1 ∧ IsAscii (str w1.mem e.2))
    (e : Text × V) (_he : e ∈ given f.parameters args kwargs) (hl : 32768 < (str w1.mem e.2).length) :
    (wrapper c str f time args kwargs w).2 = .ok r ∧
    ∀ p ∈ paths, ∃ t, record (wrapper c str f time args kwargs w).1 p f.name = some t ∧ ∀ row ∈ t.rows, row.2 ≠ str w1.mem e.2 := by
  obtain ⟨h1, h2⟩ := C155_recorded c str f time args kwargs w w1 r hrun hb paths hp hf hk
  refine ⟨h1, fun p hpp => ⟨_, h2 p hpp, fun row hrow hc => ?_⟩⟩
  obtain ⟨e', -, rfl⟩ := List.mem_map.mp hrow
  have := column_length 32768 (str w1.mem e'.2)
  dsimp only at hc
  rw [hc] at this
  omega

/-- C156: if the text of a value is not ASCII (a path with an umlaut), the call raises although the function has returned. The record of an
earlier call in the first output file is lost. -/
theorem C156_not_ascii (c : Clock) (str : M → V → Text) (f : Func M V) (time : Nat) (args : List V) (kwargs : List (Text × V)) (w w1 : World M)
    (r : Ret) (hrun : f.run args kwargs w = (w1, .ok r)) (hb : Binds f.parameters args kwargs) (p : Text) (paths : List Text)
    (hp : Stands w1 r (p :: paths)) (h5 : H5) (hf : w1.fs p = some (.h5 h5)) (e : Text × V) (he : e ∈ given f.parameters args kwargs)
    (ha : ¬ IsAscii (str w1.mem e.2)) :
    (wrapper c str f time args kwargs w).2 = .error .unicode ∧
    record (wrapper c str f time args kwargs w).1 p f.name = some ⟨[], none⟩ := by
  unfold wrapper
  rw [hrun]
  dsimp only
  rw [outputFiles_stands hp, allKwargs_given hb]
  unfold saveAll
  have hn : rowsOf ((given f.parameters args kwargs).map fun e => (e.1, str w1.mem e.2)) = none := by
    cases hr : rowsOf ((given f.parameters args kwargs).map fun e => (e.1, str w1.mem e.2)) with
    | none => rfl
    | some rows => exact absurd (rowsOf_isSome hr (e.1, str w1.mem e.2) (List.mem_map.mpr ⟨e, he, rfl⟩)).2 ha
  have hs : saveFile c p "arguments".toList f.name ((given f.parameters args kwargs).map fun e => (e.1, str w1.mem e.2)) (.seconds time) w1 =
      ({ w1 with fs := fun q => if q = p then some (.h5 (setTable h5 "arguments".toList f.name emptyTable)) else w1.fs q }, some .unicode) := by
    unfold saveFile
    rw [hf]
    dsimp only
    unfold saveConf
    rw [hn]
  rw [hs]
  refine ⟨rfl, ?_⟩
  unfold record
  dsimp only
  rw [if_pos rfl]
  dsimp only
  unfold setTable
  rw [if_pos ⟨rfl, rfl⟩]
  rfl

/-- `fit_tracks` as far as its argument `select_fit_duts` is concerned: lists of the caller by their address; the list with a None is changed
(C149); the result is the name of the output file, a pytables file. -/
def fitTracks (n : Nat) (out : Text) (files : Text → Option Entry) : Func (Nat → FitArgs.Py) Nat where
  name := "fit_tracks".toList
  parameters := ["telescope_configuration".toList, "input_track_candidates_file".toList, "select_fit_duts".toList]
  run _ kwargs w := match kwargs with
    | [(_, a)] =>
      (⟨fun p => if p = out then some (.h5 fun _ _ => none) else files p,
        fun b => if b = a then FitArgs.after (FitArgs.allDuts n) (w.mem a) else w.mem b⟩, .ok (.str out))
    | _ => (w, .error ())

/-- C156: `fit_tracks(..., select_fit_duts=[..., None, ...])`: the record does not contain the list that the caller has given, for every
text of lists that tells the two lists apart. -/
theorem C156_changed (c : Clock) (text : FitArgs.Py → Text) (n : Nat) (out : Text) (files : Text → Option Entry) (time : Nat) (a : Nat)
    (w : World (Nat → FitArgs.Py)) (l : List FitArgs.Py) (i : Nat) (hl : w.mem a = .list l) (hi : l[i]? = some .none)
    (hinj : FitArgs.after (FitArgs.allDuts n) (.list l) ≠ .list l → text (FitArgs.after (FitArgs.allDuts n) (.list l)) ≠ text (.list l))
    (hascii : IsAscii (text (FitArgs.after (FitArgs.allDuts n) (.list l))))
    (hlen : Fits 32768 (text (FitArgs.after (FitArgs.allDuts n) (.list l)))) :
    (wrapper c (fun m v => text (m v)) (fitTracks n out files) time [] [("select_fit_duts".toList, a)] w).2 = .ok (.str out) ∧
    ∃ t, record (wrapper c (fun m v => text (m v)) (fitTracks n out files) time [] [("select_fit_duts".toList, a)] w).1 out "fit_tracks".toList =
      some t ∧ t.rows = [("select_fit_duts".toList, text (FitArgs.after (FitArgs.allDuts n) (.list l)))] ∧
      ("select_fit_duts".toList, text (w.mem a)) ∉ t.rows := by
  have hb : Binds (fitTracks n out files).parameters ([] : List Nat) [("select_fit_duts".toList, a)] :=
    ⟨by unfold fitTracks; dsimp only; decide, by simp, by simp, by simp⟩
  have hg : given (fitTracks n out files).parameters ([] : List Nat) [("select_fit_duts".toList, a)] = [("select_fit_duts".toList, a)] := rfl
  obtain ⟨h1, h2⟩ := C155_recorded c (fun m v => text (m v)) (fitTracks n out files) time [] [("select_fit_duts".toList, a)] w _ _ rfl hb [out]
    (.file out (by unfold OnDisk; dsimp only; rw [if_pos rfl]; rfl))
    (by
      intro p hp
      rw [List.mem_singleton] at hp
      subst hp
      exact ⟨_, if_pos rfl⟩)
    (by
      rw [hg]
      intro e he
      rw [List.mem_singleton] at he
      subst he
      refine ⟨by unfold IsAscii; dsimp only; decide, ?_⟩
      dsimp only
      rw [if_pos rfl, hl]
      exact hascii)
  have hrows : (given (fitTracks n out files).parameters ([] : List Nat) [("select_fit_duts".toList, a)]).map (fun e =>
      (column 256 e.1, column 32768 (text (if e.2 = a then FitArgs.after (FitArgs.allDuts n) (w.mem a) else w.mem e.2)))) =
      [("select_fit_duts".toList, text (FitArgs.after (FitArgs.allDuts n) (.list l)))] := by
    rw [hg, List.map_cons, List.map_nil]
    dsimp only
    rw [if_pos rfl, hl, column_fits hlen, column_fits]
    exact ⟨by decide, by decide⟩
  refine ⟨h1, _, h2 out (by simp), hrows, ?_⟩
  intro h
  have h' := h
  rw [show _ = _ from hrows, List.mem_singleton, hl] at h'
  injection h' with _ h'
  exact hinj (FitArgs.Props.C149_changed (FitArgs.allDuts n) l i hi).choose_spec.2.2 h'.symm

/-- C156: `select_fit_duts=[None]` with two DUTs; the two texts as Python writes them. -/
example (w : World (Nat → FitArgs.Py)) (hw : w.mem 5 = .list [.none]) (text : FitArgs.Py → Text) (h1 : text (.list [.none]) = "[None]".toList)
    (h2 : text (.list [.list [.int 0, .int 1]]) = "[[0, 1]]".toList) :
    ∃ t, record (wrapper ⟨fun _ => [], []⟩ (fun m v => text (m v)) (fitTracks 2 "o".toList fun _ => none) 0 [] [("select_fit_duts".toList, 5)] w).1
      "o".toList "fit_tracks".toList = some t ∧ t.rows = [("select_fit_duts".toList, "[[0, 1]]".toList)] := by
  have ha : FitArgs.after (FitArgs.allDuts 2) (.list [.none]) = .list [.list [.int 0, .int 1]] := rfl
  obtain ⟨-, t, k1, k2, -⟩ := C156_changed ⟨fun _ => [], []⟩ text 2 "o".toList (fun _ => none) 0 5 w [.none] 0 hw rfl
    (by rw [ha, h1, h2]; exact fun _ => by decide) (by rw [ha, h2]; unfold IsAscii; decide) (by rw [ha, h2]; exact ⟨by decide, by decide⟩)
  exact ⟨t, k1, by rw [k2, ha, h2]⟩

/-! ### C157 -/

/-- C157: a date given in seconds, and the present time if none is given, are stored with the table. -/
theorem C157_date_partial (c : Clock) (f : H5) (group name : Text) (dict : List (Text × Text)) (h : ∀ e ∈ dict, IsAscii e.1 ∧ IsAscii e.2) :
    (∀ t, ∃ tab, (saveConf c f group name dict (.seconds t)).1 group name = some tab ∧ tab.date = some (c.local_ t)) ∧
    ∃ tab, (saveConf c f group name dict .none).1 group name = some tab ∧ tab.date = some c.now := by
  have key : ∀ d, (saveConf c f group name dict d).1 group name = some ⟨lines dict, dateOf c d⟩ := by
    intro d
    unfold saveConf
    rw [rowsOf_some h]
    exact if_pos ⟨rfl, rfl⟩
  exact ⟨fun t => ⟨_, key _, rfl⟩, ⟨_, key _, rfl⟩⟩

/-- C157: a date given as `time.struct_time` is not stored, and no other date. -/
theorem C157_struct_time (c : Clock) (f : H5) (group name : Text) (dict : List (Text × Text)) (t : Nat) :
    ∃ tab, (saveConf c f group name dict (.struct t)).1 group name = some tab ∧ tab.date = none := by
  unfold saveConf
  cases rowsOf dict with
  | none => exact ⟨_, if_pos ⟨rfl, rfl⟩, rfl⟩
  | some r => exact ⟨_, if_pos ⟨rfl, rfl⟩, rfl⟩

/-! ### Examples -/

/-- A function that writes two files and changes nothing else. -/
def exFunc : Func Unit Text where
  name := "convert".toList
  parameters := ["a".toList, "b".toList, "c".toList]
  run _ _ w := ({ w with fs := fun p => if p = "x".toList ∨ p = "y".toList then some (.h5 fun _ _ => none) else w.fs p },
    .ok (.seq [.str "x".toList, .str "y".toList]))

def exClock : Clock := ⟨fun _ => "Tue".toList, "Wed".toList⟩
def exWorld : World Unit := ⟨fun _ => none, ()⟩

theorem exStands : Stands (exFunc.run [] [] exWorld).1 (.seq [.str "x".toList, .str "y".toList]) ["x".toList, "y".toList] := by
  refine .files ["x".toList, "y".toList] ?_
  unfold OnDisk
  decide

/-- C155, C156: the second file of `convert("1", c="3")` has a table with two lines, none for `b`. -/
example : (wrapper exClock (fun _ v => v) exFunc 0 ["1".toList] [("c".toList, "3".toList)] exWorld).2 = .ok (.seq [.str "x".toList, .str "y".toList]) ∧
    ∃ t, record (wrapper exClock (fun _ v => v) exFunc 0 ["1".toList] [("c".toList, "3".toList)] exWorld).1 "y".toList "convert".toList = some t ∧
      t.rows = [("a".toList, "1".toList), ("c".toList, "3".toList)] := by
  obtain ⟨h1, h2⟩ := C156_given_partial exClock (fun _ v => v) exFunc 0 ["1".toList] [("c".toList, "3".toList)] exWorld _ _ rfl
    ⟨by decide, by decide, by decide, by decide⟩ ["x".toList, "y".toList] exStands
    (by
      intro p hp
      refine ⟨fun _ _ => none, if_pos ?_⟩
      simpa using hp)
    (fun _ _ => rfl)
    (by
      unfold IsAscii Fits
      decide)
  exact ⟨h1, h2 _ (by decide)⟩

/-- C156: a value with 32769 characters. -/
example (v : Text) (hv : v = List.replicate 32769 'a') :
    ∃ t, record (wrapper exClock (fun _ v => v) exFunc 0 [v] [] exWorld).1 "x".toList "convert".toList = some t ∧ ∀ row ∈ t.rows, row.2 ≠ v := by
  have hl : 32768 < v.length := by
    rw [hv, List.length_replicate]
    omega
  have ha : IsAscii v := fun c hc => by
    rw [hv] at hc
    rw [List.eq_of_mem_replicate hc]
    decide
  clear hv
  obtain ⟨-, h2⟩ := C156_long exClock (fun _ v => v) exFunc 0 [v] [] exWorld _ _ rfl
    ⟨by decide, by simp [exFunc], by simp, by simp⟩ ["x".toList, "y".toList] exStands
    (by
      intro p hp
      refine ⟨fun _ _ => none, if_pos ?_⟩
      simpa using hp)
    (by
      intro e he
      have : e = ("a".toList, v) := by simpa [given, exFunc] using he
      subst this
      exact ⟨by unfold IsAscii; dsimp only; decide, ha⟩)
    ("a".toList, v) (by simp [given, exFunc]) hl
  exact h2 _ (by decide)

/-- C156: the value "ä". -/
example : (wrapper exClock (fun _ v => v) exFunc 0 ["ä".toList] [] exWorld).2 = .error .unicode :=
  (C156_not_ascii exClock (fun _ v => v) exFunc 0 ["ä".toList] [] exWorld _ _ rfl ⟨by decide, by decide, by decide, by decide⟩ "x".toList
    ["y".toList] exStands (fun _ _ => none) rfl ("a".toList, "ä".toList) (by decide) (by unfold IsAscii; decide)).1

end BTA.Save.Props
