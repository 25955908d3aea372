import Verif.Spec.SaveArguments
/-
Lemmas for the record of arguments.
-/
namespace BTA.Save
open BTA.Save.Spec

theorem column_fits {n : Nat} {s : Text} (h : Fits n s) : column n s = s := by
  unfold column
  rw [List.take_of_length_le h.1]
  rcases List.eq_nil_or_concat s with rfl | ⟨l, c, rfl⟩
  · rfl
  · rw [List.concat_eq_append] at h ⊢
    rw [List.rdropWhile_concat, if_neg]
    have := h.2
    simpa using this

theorem column_length (n : Nat) (s : Text) : (column n s).length ≤ n := by
  unfold column
  have : ((s.take n).rdropWhile fun c => decide (c = Char.ofNat 0)).length ≤ (s.take n).length := (List.rdropWhile_prefix _ _).length_le
  exact this.trans (by rw [List.length_take]; exact Nat.min_le_left _ _)

theorem ascii_iff (s : Text) : ascii s = true ↔ IsAscii s := by
  unfold ascii IsAscii
  simp

theorem rowsOf_some : ∀ {l : List (Text × Text)}, (∀ e ∈ l, IsAscii e.1 ∧ IsAscii e.2) →
    rowsOf l = some (l.map fun e => (column 256 e.1, column (32 * 1024) e.2))
  | [], _ => rfl
  | (k, v) :: l, h => by
    have h1 := h (k, v) (by simp)
    have h2 : (ascii k && ascii v) = true := by
      rw [(ascii_iff k).mpr h1.1, (ascii_iff v).mpr h1.2]
      rfl
    unfold rowsOf
    rw [if_pos h2, rowsOf_some fun e he => h e (by simp [he])]
    rfl

theorem rowsOf_isSome : ∀ {l : List (Text × Text)} {r : List (Text × Text)}, rowsOf l = some r → ∀ e ∈ l, IsAscii e.1 ∧ IsAscii e.2
  | [], _, _ => by simp
  | (k, v) :: l, r, h => by
    unfold rowsOf at h
    split_ifs at h with hc
    rw [Bool.and_eq_true, ascii_iff, ascii_iff] at hc
    revert h
    cases hr : rowsOf l with
    | none => intro h; cases h
    | some r' =>
      intro _ e he
      rcases List.mem_cons.mp he with rfl | he
      · exact hc
      · exact rowsOf_isSome hr e he

theorem fileOf_iff {M : Type} (w : World M) (r : Ret) (p : Text) : fileOf w r = some p ↔ r = .str p ∧ OnDisk w p := by
  cases r with
  | str s =>
    unfold fileOf OnDisk
    dsimp only
    split_ifs with h
    · simp only [Option.some.injEq, Ret.str.injEq]
      constructor
      · rintro rfl; exact ⟨rfl, h⟩
      · exact fun k => k.1
    · simp only [Ret.str.injEq, false_iff, not_and, reduceCtorEq]
      rintro rfl
      exact h
  | seq l => simp [fileOf]
  | other => simp [fileOf]

theorem filesOf_iff {M : Type} (w : World M) : ∀ (l : List Ret) (ps : List Text), filesOf w l = some ps ↔ l = ps.map Ret.str ∧ ∀ p ∈ ps, OnDisk w p
  | [], ps => by
    unfold filesOf
    constructor
    · intro h
      injection h with h
      subst h
      simp
    · rintro ⟨h, -⟩
      rw [List.nil_eq, List.map_eq_nil_iff] at h
      rw [h]
  | r :: l, ps => by
    unfold filesOf
    cases hr : fileOf w r with
    | none =>
      constructor
      · intro h; cases h
      · rintro ⟨h, hp⟩
        cases ps with
        | nil => simp at h
        | cons p ps =>
          rw [List.map_cons] at h
          injection h with h1 h2
          rw [(fileOf_iff w r p).mpr ⟨h1, hp p (by simp)⟩] at hr
          cases hr
    | some s =>
      rw [fileOf_iff] at hr
      cases hl : filesOf w l with
      | none =>
        constructor
        · intro h; cases h
        · rintro ⟨h, hp⟩
          cases ps with
          | nil => simp at h
          | cons p ps =>
            rw [List.map_cons] at h
            injection h with h1 h2
            rw [(filesOf_iff w l ps).mpr ⟨h2, fun q hq => hp q (by simp [hq])⟩] at hl
            cases hl
      | some ls =>
        rw [filesOf_iff] at hl
        constructor
        · intro h
          injection h with h
          subst h
          refine ⟨by rw [hr.1, hl.1]; rfl, ?_⟩
          intro p hp
          rcases List.mem_cons.mp hp with rfl | hp
          · exact hr.2
          · exact hl.2 p hp
        · rintro ⟨h, hp⟩
          cases ps with
          | nil => simp at h
          | cons p ps =>
            rw [List.map_cons] at h
            injection h with h1 h2
            rw [hr.1] at h1
            injection h1 with h1
            rw [hl.1] at h2
            have : ls = ps := List.map_injective_iff.mpr (fun a b h => by injection h) h2
            subst this h1
            rfl

theorem outputFiles_stands {M : Type} {w : World M} {r : Ret} {ps : List Text} (h : Stands w r ps) : outputFiles w r = ps := by
  cases h with
  | file p h => exact if_pos h
  | files ps h =>
    unfold outputFiles
    dsimp only
    rw [(filesOf_iff w _ ps).mpr ⟨rfl, h⟩]
  | first p rest h hn =>
    unfold outputFiles
    dsimp only
    have : filesOf w (.str p :: rest) = none := by
      cases hf : filesOf w (.str p :: rest) with
      | none => rfl
      | some ls =>
        obtain ⟨h1, h2⟩ := (filesOf_iff w _ _).mp hf
        refine absurd ?_ hn
        intro r hr
        have hm : r ∈ ls.map Ret.str := by rw [← h1]; simp [hr]
        obtain ⟨q, hq, rfl⟩ := List.mem_map.mp hm
        exact h2 q hq
    rw [this]
    dsimp only
    unfold firstOf
    dsimp only
    rw [(fileOf_iff w (.str p) p).mpr ⟨rfl, h⟩]
  | firstList ps rest h =>
    unfold outputFiles
    dsimp only
    have : filesOf w (.seq (ps.map Ret.str) :: rest) = none := by
      cases hf : filesOf w (.seq (ps.map Ret.str) :: rest) with
      | none => rfl
      | some ls =>
        obtain ⟨h1, -⟩ := (filesOf_iff w _ _).mp hf
        cases ls with
        | nil => simp at h1
        | cons q ls =>
          rw [List.map_cons] at h1
          injection h1 with h1
          cases h1
    rw [this]
    dsimp only
    unfold firstOf
    have h2 : fileOf w (.seq (ps.map Ret.str)) = none := rfl
    dsimp only
    rw [h2]
    dsimp only
    rw [(filesOf_iff w _ ps).mpr ⟨rfl, h⟩]
    rfl

/-- A value that stands for no files. -/
theorem outputFiles_nil {M : Type} {w : World M} {r : Ret} (h : ∀ ps, Stands w r ps → ps = []) : outputFiles w r = [] := by
  cases r with
  | str s =>
    unfold outputFiles
    dsimp only
    split_ifs with hs
    · exact absurd (h _ (.file s hs)) (by simp)
    · rfl
  | other => rfl
  | seq l =>
    unfold outputFiles
    dsimp only
    cases hf : filesOf w l with
    | some ls =>
      obtain ⟨h1, h2⟩ := (filesOf_iff w _ _).mp hf
      subst h1
      exact h _ (.files ls h2)
    | none =>
      dsimp only
      cases l with
      | nil => rfl
      | cons r rest =>
        unfold firstOf
        cases hr : fileOf w r with
        | some s =>
          obtain ⟨rfl, hs⟩ := (fileOf_iff w _ _).mp hr
          refine absurd (h [s] (.first s rest hs fun hall => ?_)) (by simp)
          have key : ∀ (l : List Ret), (∀ r ∈ l, IsFile w r) → ∃ ps, filesOf w l = some ps := by
            intro l
            induction l with
            | nil => exact fun _ => ⟨[], rfl⟩
            | cons a l ih =>
              intro ha
              obtain ⟨ps, hps⟩ := ih fun r hr => ha r (by simp [hr])
              have h1 := ha a (by simp)
              cases a with
              | str q =>
                exact ⟨q :: ps, (filesOf_iff w _ _).mpr ⟨by rw [((filesOf_iff w _ _).mp hps).1]; rfl, by
                  intro p hp
                  rcases List.mem_cons.mp hp with rfl | hp
                  · exact h1
                  · exact ((filesOf_iff w _ _).mp hps).2 p hp⟩⟩
              | seq _ => exact h1.elim
              | other => exact h1.elim
          obtain ⟨ps, hps⟩ := key (.str s :: rest) (by
            intro r hr
            rcases List.mem_cons.mp hr with rfl | hr
            · exact hs
            · exact hall r hr)
          rw [hps] at hf
          cases hf
        | none =>
          dsimp only
          cases r with
          | str _ => rw [hr]
          | other => rfl
          | seq l' =>
            dsimp only [fileOf]
            cases hl : filesOf w l' with
            | none => rfl
            | some ls =>
              obtain ⟨rfl, h2⟩ := (filesOf_iff w _ _).mp hl
              exact h _ (.firstList ls rest h2)

theorem setKey_new {V : Type} {d : List (Text × V)} {k : Text} (v : V) (h : k ∉ d.map Prod.fst) : setKey d k v = d ++ [(k, v)] := by
  unfold setKey
  rw [if_neg]
  rw [Bool.not_eq_true, List.any_eq_false]
  intro e he hk
  exact h (List.mem_map.mpr ⟨e, he, by simpa using hk⟩)

theorem foldl_setKey {V : Type} : ∀ (kwargs d : List (Text × V)), (kwargs.map Prod.fst).Nodup → (∀ k ∈ kwargs.map Prod.fst, k ∉ d.map Prod.fst) →
    kwargs.foldl (fun d e => setKey d e.1 e.2) d = d ++ kwargs
  | [], d, _, _ => by simp
  | (k, v) :: l, d, hn, h => by
    rw [List.foldl_cons]
    dsimp only
    rw [setKey_new v (h k (by simp))]
    rw [List.map_cons, List.nodup_cons] at hn
    rw [foldl_setKey l _ hn.2]
    · simp
    · intro k' hk'
      rw [List.map_append, List.mem_append]
      rintro (h1 | h1)
      · exact h k' (by rw [List.map_cons]; exact List.mem_cons_of_mem _ hk') h1
      · simp only [List.map_cons, List.map_nil, List.mem_singleton] at h1
        subst h1
        exact hn.1 hk'

theorem allKwargs_given {V : Type} {parameters : List Text} {args : List V} {kwargs : List (Text × V)} (h : Binds parameters args kwargs) :
    allKwargs parameters args kwargs = given parameters args kwargs := by
  unfold allKwargs given
  apply foldl_setKey _ _ h.keys
  intro k hk hm
  apply h.once k hk
  obtain ⟨e, he, rfl⟩ := List.mem_map.mp hm
  obtain ⟨i, hi, hie⟩ := List.getElem_of_mem he
  rw [← hie]
  rw [List.length_zip] at hi
  rw [List.getElem_zip]
  dsimp only
  rw [List.mem_take_iff_getElem]
  exact ⟨i, by omega, rfl⟩

/-- The lines that are stored. -/
def lines (dict : List (Text × Text)) : List (Text × Text) := dict.map fun e => (column 256 e.1, column (32 * 1024) e.2)

theorem saveFile_ok {M : Type} (c : Clock) (p name : Text) (dict : List (Text × Text)) (date : Date) (w : World M) (f : H5)
    (hf : w.fs p = some (.h5 f)) (ha : ∀ e ∈ dict, IsAscii e.1 ∧ IsAscii e.2) :
    saveFile c p "arguments".toList name dict date w =
      ({ w with fs := fun q => if q = p then some (.h5 (setTable f "arguments".toList name ⟨lines dict, dateOf c date⟩)) else w.fs q }, none) := by
  unfold saveFile
  rw [hf]
  dsimp only
  unfold saveConf
  rw [rowsOf_some ha]
  rfl

theorem onlyRecords_refl {M : Type} (w : World M) (ps : List Text) (name : Text) : OnlyRecords w w ps name :=
  ⟨rfl, fun _ _ => rfl, fun _ f hf => ⟨f, hf, fun _ _ _ => rfl⟩⟩

theorem onlyRecords_trans {M : Type} {w w' w'' : World M} {ps : List Text} {name : Text} (h : OnlyRecords w w' ps name)
    (h' : OnlyRecords w' w'' ps name) : OnlyRecords w w'' ps name := by
  refine ⟨h'.1.trans h.1, fun p hp => (h'.2.1 p hp).trans (h.2.1 p hp), fun p f hf => ?_⟩
  obtain ⟨f1, h1, k1⟩ := h.2.2 p f hf
  obtain ⟨f2, h2, k2⟩ := h'.2.2 p f1 h1
  exact ⟨f2, h2, fun g n hgn => (k2 g n hgn).trans (k1 g n hgn)⟩

theorem onlyRecords_mono {M : Type} {w w' : World M} {ps qs : List Text} {name : Text} (h : OnlyRecords w w' ps name) (hs : ∀ p ∈ ps, p ∈ qs) :
    OnlyRecords w w' qs name :=
  ⟨h.1, fun p hp => h.2.1 p fun hm => hp (hs p hm), h.2.2⟩

theorem onlyRecords_set {M : Type} (w : World M) (p name : Text) (f : H5) (hf : w.fs p = some (.h5 f)) (t : Table) :
    OnlyRecords w { w with fs := fun q => if q = p then some (.h5 (setTable f "arguments".toList name t)) else w.fs q } [p] name := by
  refine ⟨rfl, fun q hq => ?_, fun q g hg => ?_⟩
  · simp only [List.mem_singleton] at hq
    exact if_neg hq
  · by_cases hq : q = p
    · subst hq
      rw [hf] at hg
      injection hg with hg
      injection hg with hg
      subst hg
      refine ⟨_, if_pos rfl, fun g n hgn => ?_⟩
      unfold setTable
      rw [if_neg]
      rintro ⟨rfl, rfl⟩
      rcases hgn with h | h <;> exact h rfl
    · exact ⟨g, by rw [← hg]; exact if_neg hq, fun _ _ _ => rfl⟩

theorem saveFile_only {M : Type} (c : Clock) (p name : Text) (dict : List (Text × Text)) (date : Date) (w : World M) (hp : OnDisk w p) :
    OnlyRecords w (saveFile c p "arguments".toList name dict date w).1 [p] name := by
  unfold saveFile
  cases hf : w.fs p with
  | none => rw [OnDisk, hf] at hp; cases hp
  | some x =>
    cases x with
    | other => exact onlyRecords_refl _ _ _
    | h5 f =>
      dsimp only
      unfold saveConf
      cases rowsOf dict with
      | none => exact onlyRecords_set w p name f hf _
      | some r => exact onlyRecords_set w p name f hf _

theorem saveFile_exists {M : Type} (c : Clock) (p name : Text) (dict : List (Text × Text)) (date : Date) (w : World M) (q : Text) (hq : OnDisk w q) :
    OnDisk (saveFile c p "arguments".toList name dict date w).1 q := by
  unfold saveFile
  cases hf : w.fs p with
  | none =>
    show ((if q = p then _ else w.fs q) : Option Entry).isSome = true
    split_ifs
    · rfl
    · exact hq
  | some x =>
    cases x with
    | other => exact hq
    | h5 f =>
      show ((if q = p then _ else w.fs q) : Option Entry).isSome = true
      split_ifs
      · rfl
      · exact hq

theorem saveAll_only {M : Type} (c : Clock) (name : Text) (dict : List (Text × Text)) (date : Date) : ∀ (ps : List Text) (w : World M),
    (∀ p ∈ ps, OnDisk w p) → OnlyRecords w (saveAll c name dict date ps w).1 ps name
  | [], w, _ => onlyRecords_refl _ _ _
  | p :: ps, w, h => by
    have h1 := saveFile_only c p name dict date w (h p (by simp))
    have h2 := fun (q : Text) (hq : q ∈ ps) => saveFile_exists c p name dict date w q (h q (by simp [hq]))
    unfold saveAll
    revert h1 h2
    cases hs : saveFile c p "arguments".toList name dict date w with
    | mk w' e =>
      intro h1 h2
      cases e with
      | some e => exact onlyRecords_mono h1 (by simp)
      | none =>
        exact onlyRecords_trans (onlyRecords_mono h1 (by simp)) (onlyRecords_mono (saveAll_only c name dict date ps w' h2) (by
          intro q hq; simp [hq]))

theorem saveAll_ok {M : Type} (c : Clock) (name : Text) (dict : List (Text × Text)) (date : Date) (ha : ∀ e ∈ dict, IsAscii e.1 ∧ IsAscii e.2) :
    ∀ (ps : List Text) (w : World M), (∀ p ∈ ps, ∃ f, w.fs p = some (.h5 f)) →
    (saveAll c name dict date ps w).2 = none ∧
    (∀ p, (p ∈ ps ∨ record w p name = some ⟨lines dict, dateOf c date⟩) → (∃ f, w.fs p = some (.h5 f)) →
      record (saveAll c name dict date ps w).1 p name = some ⟨lines dict, dateOf c date⟩)
  | [], w, _ => ⟨rfl, fun p hp _ => hp.elim (fun h => by cases h) fun h => h⟩
  | p :: ps, w, h => by
    obtain ⟨f, hf⟩ := h p (by simp)
    unfold saveAll
    rw [saveFile_ok c p name dict date w f hf ha]
    dsimp only
    obtain ⟨h1, h2⟩ := saveAll_ok c name dict date ha ps
      { w with fs := fun q => if q = p then some (.h5 (setTable f "arguments".toList name ⟨lines dict, dateOf c date⟩)) else w.fs q } (by
        intro q hq
        by_cases hqp : q = p
        · exact ⟨_, if_pos hqp⟩
        · obtain ⟨g, hg⟩ := h q (by simp [hq])
          exact ⟨g, by rw [← hg]; exact if_neg hqp⟩)
    refine ⟨h1, fun q hq hqf => ?_⟩
    by_cases hqp : q = p
    · subst hqp
      refine h2 q (.inr ?_) ⟨_, if_pos rfl⟩
      unfold record
      dsimp only
      rw [if_pos rfl]
      dsimp only
      unfold setTable
      rw [if_pos ⟨rfl, rfl⟩]
    · obtain ⟨g, hg⟩ := hqf
      refine h2 q ?_ ⟨g, by rw [← hg]; exact if_neg hqp⟩
      rcases hq with hq | hq
      · rcases List.mem_cons.mp hq with hq | hq
        · exact absurd hq hqp
        · exact .inl hq
      · right
        unfold record at hq ⊢
        dsimp only
        rw [if_neg hqp]
        exact hq

theorem saveAll_none {M : Type} (c : Clock) (name : Text) (dict : List (Text × Text)) (date : Date) : ∀ (ps : List Text) (w : World M),
    (∀ p ∈ ps, OnDisk w p) → (saveAll c name dict date ps w).2 = none → ps ≠ [] →
    (∀ e ∈ dict, IsAscii e.1 ∧ IsAscii e.2) ∧ ∀ p ∈ ps, ∃ f, w.fs p = some (.h5 f)
  | [], _, _, _, hn => absurd rfl hn
  | p :: ps, w, hx, h, _ => by
    have hp := hx p (by simp)
    have h2 := fun (q : Text) (hq : q ∈ ps) => saveFile_exists c p name dict date w q (hx q (by simp [hq]))
    have honly := saveFile_only c p name dict date w hp
    unfold saveAll at h
    cases hs : saveFile c p "arguments".toList name dict date w with
    | mk w' e =>
      rw [hs] at h h2 honly
      dsimp only at h h2 honly
      cases e with
      | some e => cases h
      | none =>
        have hpf : (∀ e ∈ dict, IsAscii e.1 ∧ IsAscii e.2) ∧ ∃ f, w.fs p = some (.h5 f) := by
          unfold saveFile at hs
          cases hf : w.fs p with
          | none => rw [OnDisk, hf] at hp; cases hp
          | some x =>
            rw [hf] at hs
            cases x with
            | other => cases hs
            | h5 f =>
              refine ⟨?_, f, rfl⟩
              dsimp only at hs
              injection hs with _ hs
              unfold saveConf at hs
              cases hr : rowsOf dict with
              | none => rw [hr] at hs; cases hs
              | some r => exact rowsOf_isSome hr
        refine ⟨hpf.1, fun q hq => ?_⟩
        rcases List.mem_cons.mp hq with rfl | hq
        · exact hpf.2
        · by_cases hqp : q = p
          · subst hqp; exact hpf.2
          · obtain ⟨f, hf⟩ := (saveAll_none c name dict date ps w' h2 h (by intro h0; rw [h0] at hq; cases hq)).2 q hq
            rw [honly.2.1 q (by simpa using hqp)] at hf
            exact ⟨f, hf⟩

theorem stands_exists {M : Type} {w : World M} {r : Ret} {ps : List Text} (h : Stands w r ps) : ∀ p ∈ ps, OnDisk w p := by
  cases h with
  | file p h => simpa using h
  | files ps h => exact h
  | first p rest h _ => simpa using h
  | firstList ps rest h => exact h

end BTA.Save
