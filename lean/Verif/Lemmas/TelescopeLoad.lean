import Verif.Lemmas.TelescopeDut
/-
Lemmas about loading and saving telescopes.
-/
namespace BTA.Tel
open Spec

variable {F : Type} [PyFloat F] [LinearOrder F]

omit [PyFloat F] [LinearOrder F] in
theorem get?_filter {α : Type} (d : List (Key × α)) (k0 k : Key) :
    get? (d.filter (fun e => e.1 ≠ k0)) k = if k = k0 then none else get? d k := by
  induction d with
  | nil => simp [get?]
  | cons e d ih =>
    obtain ⟨a, b⟩ := e
    by_cases h : a = k0
    · subst h
      rw [List.filter_cons_of_neg (by simp), ih, get?_cons]
      by_cases hk : k = a
      · simp [hk]
      · have : ¬ a = k := fun h' => hk h'.symm
        simp [hk, this]
    · rw [List.filter_cons_of_pos (by simpa using h), get?_cons, get?_cons, ih]
      by_cases hk : a = k
      · subst hk; simp [h]
      · simp [hk]

theorem classOf_name (c : Cls) : classOf c.name = .ok c := by cases c <;> rfl

/-- The keywords with the default name. -/
def named (i : ℤ) (kw : List (Key × Value F)) : List (Key × Value F) :=
  if (get? kw (.text "name")).isSome then kw else put kw (.text "name") (.text ("DUT" ++ toString i))

omit [PyFloat F] [LinearOrder F] in
theorem put_of_none {α : Type} {d : List (Key × α)} {k : Key} {v : α} (h : get? d k = none) : put d k v = d ++ [(k, v)] := by
  induction d with
  | nil => rfl
  | cons e d ih =>
    obtain ⟨a, b⟩ := e
    rw [get?_cons] at h
    by_cases hk : a = k
    · rw [if_pos hk] at h; simp at h
    · rw [if_neg hk] at h
      simp [put, hk, ih h]

omit [PyFloat F] [LinearOrder F] in
theorem named_eq (i : ℤ) (kw : List (Key × Value F)) :
    named i kw = if (kw.lookup (.text "name")).isSome then kw else kw ++ [(.text "name", .text ("DUT" ++ toString i))] := by
  unfold named
  by_cases h : (get? kw (.text "name")).isSome = true
  · rw [if_pos h]; rw [if_pos (by exact h)]
  · rw [if_neg h, if_neg (by exact h), put_of_none]
    cases h' : get? kw (.text "name") with
    | none => rfl
    | some v => simp [h'] at h

/-- The DUT made by `add_dut`. -/
def made (cls : String) (i : ℤ) (kw : List (Key × Value F)) : Except Err (Dut F) :=
  match classOf cls with
  | .error e => .error e
  | .ok c => construct c (named i kw)

theorem addDut_eq (t : Telescope F) (cls : String) (i : ℤ) (kw : List (Key × Value F)) :
    t.addDut cls (.int i) kw = match made cls i kw with
      | .error e => .error e
      | .ok d => .ok (t.setItem (.int i) d) := by
  unfold Telescope.addDut made
  simp only
  cases classOf cls with
  | error e => rfl
  | ok c =>
    simp only [bind, Except.bind]
    unfold named
    split <;> rename_i hc <;> rw [hc]

theorem stored_add (i j : ℤ) (cls : String) (kw : List (Key × Value F)) :
    stored i (.add cls j kw) = if j = i then (made cls j kw).toOption else none := by
  unfold stored made
  by_cases h : j = i
  · simp only [h, if_true]
    cases classOf cls with
    | error e => rfl
    | ok c =>
      rw [named_eq]
      simp only
      split <;> rename_i hc <;> rw [hc] <;> rfl
  · simp [h]

theorem made_valid {cls : String} {i : ℤ} {kw : List (Key × Value F)} {d : Dut F} (h : made cls i kw = .ok d) : ValidDut d := by
  unfold made at h
  split at h
  · simp at h
  · exact construct_valid h

/-- What holds for every telescope that can be built. -/
structure Usable (t : Telescope F) : Prop where
  nodup : (t.duts.map Prod.fst).Nodup
  ids : ∀ e ∈ t.duts, ∃ i : ℤ, e.1 = .int i
  valid : ∀ e ∈ t.duts, ValidDut e.2
  file : t.file ≠ some ""

theorem Usable.setItem {t : Telescope F} (h : Usable t) (i : ℤ) {d : Dut F} (hd : ValidDut d) : Usable (t.setItem (.int i) d) := by
  refine ⟨nodup_put h.nodup _ _, ?_, ?_, h.file⟩
  · intro e he
    rcases mem_put he with rfl | he
    · exact ⟨i, rfl⟩
    · exact h.ids e he
  · intro e he
    rcases mem_put he with rfl | he
    · exact hd
    · exact h.valid e he

theorem Usable.addDut {t t' : Telescope F} (h : Usable t) {cls : String} {id : Key} {kw : List (Key × Value F)}
    (ha : t.addDut cls id kw = .ok t') : Usable t' := by
  cases id with
  | text s => simp [Telescope.addDut] at ha
  | int i =>
    rw [addDut_eq] at ha
    split at ha
    · simp at ha
    · rename_i d hd
      simp at ha
      rw [← ha]
      exact h.setItem i (made_valid hd)

theorem Usable.loadDut {t t' : Telescope F} (h : Usable t) {id : Key} {conf : Value F} (hl : loadDut t id conf = .ok t') :
    Usable t' := by
  unfold BTA.Tel.loadDut at hl
  obtain ⟨⟨ty, kw⟩, _, hl⟩ := bind_ok hl
  simp only at hl
  split at hl
  · exact h.addDut hl
  · simp at hl

theorem Usable.loadDuts {t : Telescope F} (h : Usable t) (l : List (Key × Value F)) : Usable (loadDuts t l).1 := by
  induction l generalizing t with
  | nil => exact h
  | cons e l ih =>
    obtain ⟨id, conf⟩ := e
    unfold BTA.Tel.loadDuts
    split
    · rename_i t' ht
      exact ih (h.loadDut ht)
    · exact h

omit [LinearOrder F] in
theorem loadFrame_duts (t : Telescope F) (l : List (Key × Value F)) :
    (loadFrame t l).1.duts = t.duts ∧ (loadFrame t l).1.file = t.file := by
  induction l generalizing t with
  | nil => exact ⟨rfl, rfl⟩
  | cons e l ih =>
    obtain ⟨k, v⟩ := e
    cases k with
    | int i => exact ih t
    | text s =>
      unfold loadFrame
      split
      · split
        · exact ih _
        · exact ⟨rfl, rfl⟩
      · exact ih t

theorem Usable.loadFrame {t : Telescope F} (h : Usable t) (l : List (Key × Value F)) : Usable (loadFrame t l).1 := by
  obtain ⟨h1, h2⟩ := loadFrame_duts t l
  exact ⟨by rw [h1]; exact h.nodup, by rw [h1]; exact h.ids, by rw [h1]; exact h.valid, by rw [h2]; exact h.file⟩

theorem Usable.loadValue {t : Telescope F} (h : Usable t) (v : Value F) : Usable (loadValue t v).1 := by
  unfold BTA.Tel.loadValue
  split
  · exact h
  · split
    · unfold loadSection
      split
      · split
        · rename_i duts _
          have := h.loadDuts duts
          split
          · rename_i t' ht
            rw [ht] at this
            exact this.loadFrame _
          · rename_i t' e ht
            rw [ht] at this
            exact this
        · exact h
        · exact h.loadFrame _
      · exact h
    · exact h
  · exact h

theorem Usable.fileName {t t' : Telescope F} (h : Usable t) {arg : Option String} {f : String}
    (hf : t.fileName arg = .ok (f, t')) : Usable t' ∧ t'.file = some f ∧ f ≠ "" ∧ t'.frame = t.frame ∧ t'.duts = t.duts := by
  have known : Telescope.fileName.known t = .ok (f, t') →
      Usable t' ∧ t'.file = some f ∧ f ≠ "" ∧ t'.frame = t.frame ∧ t'.duts = t.duts := by
    intro hk
    unfold Telescope.fileName.known at hk
    split at hk
    · rename_i g hg
      simp at hk
      obtain ⟨rfl, rfl⟩ := hk
      exact ⟨h, hg, fun hf => h.file (hf ▸ hg), rfl, rfl⟩
    · simp at hk
  unfold Telescope.fileName at hf
  split at hf
  · split at hf
    · exact known hf
    · rename_i g hg
      simp at hf
      obtain ⟨rfl, rfl⟩ := hf
      exact ⟨⟨h.nodup, h.ids, h.valid, by simpa using hg⟩, rfl, hg, rfl, rfl⟩
  · exact known hf

theorem Usable.load {t : Telescope F} (h : Usable t) (arg : Option String) (files : Files F) : Usable (t.load arg files).1 := by
  unfold Telescope.load
  split
  · exact h
  · rename_i f t' hf
    have := (h.fileName hf).1
    split
    · exact this
    · exact this.loadValue _

omit [LinearOrder F] in
/-- What a successful save means. -/
theorem save_ok {t : Telescope F} {arg : Option String} {keep : Bool} {files : Files F} {r : Telescope F × Files F}
    (h : t.save arg keep files = .ok r) : ∃ f conf, t.fileName arg = .ok (f, r.1) ∧
      saveValue r.1 (if keep then (files f).getD (.dict []) else .dict []) = .ok conf ∧
      r.2 = fun g => if g = f then some (yaml conf) else files g := by
  unfold Telescope.save at h
  obtain ⟨⟨f, t'⟩, hf, h⟩ := bind_ok h
  simp only at h
  obtain ⟨conf, hc, h⟩ := bind_ok h
  simp at h
  subst h
  exact ⟨f, conf, hf, hc, rfl⟩

theorem made_usable {t : Telescope F} (h : Made t) : Usable t := by
  induction h with
  | new => exact ⟨by simp [Telescope.new], by simp [Telescope.new], by simp [Telescope.new], by simp [Telescope.new]⟩
  | frame _ _ _ ih => exact ⟨ih.nodup, ih.ids, ih.valid, ih.file⟩
  | add _ ha ih => exact ih.addDut ha
  | item i _ hd ih => exact ih.setItem i (built_valid hd)
  | load _ ih => exact ih.load _ _
  | save _ hs ih =>
    obtain ⟨f, conf, hf, _⟩ := save_ok hs
    exact (ih.fileName hf).1

/-! ### Loading the DUTs -/

/-- The DUT described by an entry of the section DUT. -/
def parsed (id : Key) (conf : Value F) : Except Err (Dut F) :=
  match dutArgs conf with
  | .error e => .error e
  | .ok (.text cls, kw) => match id with
    | .int i => made cls i kw
    | .text _ => .error .valueError
  | .ok _ => .error .valueError

theorem loadDut_eq (t : Telescope F) (id : Key) (conf : Value F) :
    loadDut t id conf = match parsed id conf with
      | .error e => .error e
      | .ok d => .ok (t.setItem id d) := by
  unfold loadDut parsed
  cases dutArgs conf with
  | error e => rfl
  | ok p =>
    obtain ⟨ty, kw⟩ := p
    cases ty <;> cases id <;> simp only [bind, Except.bind] <;> first
      | rfl
      | (rw [addDut_eq])

theorem loadDuts_ok {t t' : Telescope F} {l : List (Key × Value F)} (h : loadDuts t l = (t', none)) :
    t'.frame = t.frame ∧ t'.file = t.file ∧ ∀ e ∈ l, ∃ d, parsed e.1 e.2 = .ok d := by
  induction l generalizing t with
  | nil => simp [loadDuts] at h; subst h; simp
  | cons e l ih =>
    obtain ⟨id, conf⟩ := e
    unfold loadDuts at h
    rw [loadDut_eq] at h
    cases hp : parsed id conf with
    | error e => rw [hp] at h; simp at h
    | ok d =>
      rw [hp] at h
      obtain ⟨h1, h2, h3⟩ := ih h
      refine ⟨h1, h2, ?_⟩
      intro e he
      rcases List.mem_cons.1 he with rfl | he
      · exact ⟨d, hp⟩
      · exact h3 e he

theorem loadDuts_get {t t' : Telescope F} {l : List (Key × Value F)} (hl : (l.map Prod.fst).Nodup)
    (h : loadDuts t l = (t', none)) (k : Key) :
    get? t'.duts k = match get? l k with
      | some conf => (parsed k conf).toOption
      | none => get? t.duts k := by
  induction l generalizing t with
  | nil => simp [loadDuts] at h; subst h; rfl
  | cons e l ih =>
    obtain ⟨id, conf⟩ := e
    simp only [List.map_cons, List.nodup_cons] at hl
    unfold loadDuts at h
    rw [loadDut_eq] at h
    cases hp : parsed id conf with
    | error e => rw [hp] at h; simp at h
    | ok d =>
      rw [hp] at h
      rw [ih hl.2 h, get?_cons]
      by_cases hk : id = k
      · subst hk
        have : get? l id = none := (get?_none_iff l id).2 hl.1
        simp only [if_true, this, hp, Telescope.setItem]
        rw [get?_put]
        simp [Except.toOption]
      · simp only [if_neg hk]
        cases get? l k with
        | some c => rfl
        | none => simp [Telescope.setItem, get?_put, hk]

theorem loadDuts_succeeds {t : Telescope F} {l : List (Key × Value F)} (h : ∀ e ∈ l, ∃ d, parsed e.1 e.2 = .ok d) :
    ∃ t', loadDuts t l = (t', none) := by
  induction l generalizing t with
  | nil => exact ⟨t, rfl⟩
  | cons e l ih =>
    obtain ⟨id, conf⟩ := e
    obtain ⟨d, hd⟩ := h _ (List.mem_cons_self ..)
    unfold loadDuts
    rw [loadDut_eq]
    simp only at hd
    rw [hd]
    exact ih (fun e he => h e (List.mem_cons_of_mem _ he))

/-! ### Loading the attributes of the telescope -/

omit [LinearOrder F] in
theorem frame_ext {f f' : Frame F} (h : ∀ a ∈ frameAttributes, frameGet f a = frameGet f' a) : f = f' := by
  obtain ⟨a, b, c, d, e, g⟩ := f
  obtain ⟨a', b', c', d', e', g'⟩ := f'
  have h1 := h "translation_x" (by simp [frameAttributes])
  have h2 := h "translation_y" (by simp [frameAttributes])
  have h3 := h "translation_z" (by simp [frameAttributes])
  have h4 := h "rotation_alpha" (by simp [frameAttributes])
  have h5 := h "rotation_beta" (by simp [frameAttributes])
  have h6 := h "rotation_gamma" (by simp [frameAttributes])
  simp [frameGet] at h1 h2 h3 h4 h5 h6
  subst h1 h2 h3 h4 h5 h6
  rfl

omit [LinearOrder F] in
theorem frameSet_ok {f f' : Frame F} {a : String} (ha : a ∈ frameAttributes) {v : Value F} (h : frameSet f a v = .ok f') :
    ∃ x, toFloat v = .ok x ∧ ∀ b ∈ frameAttributes, frameGet f' b = if a = b then .flt x else frameGet f b := by
  unfold frameSet at h
  obtain ⟨x, hx, h⟩ := bind_ok h
  refine ⟨x, hx, ?_⟩
  simp only [frameAttributes, List.mem_cons, List.not_mem_nil, or_false] at ha
  intro b hb
  simp only [frameAttributes, List.mem_cons, List.not_mem_nil, or_false] at hb
  rcases ha with rfl | rfl | rfl | rfl | rfl | rfl <;> simp at h <;> subst h <;>
    rcases hb with rfl | rfl | rfl | rfl | rfl | rfl <;> simp [frameGet]

omit [LinearOrder F] in
theorem frameSet_of_float {f : Frame F} {a : String} {v : Value F} {x : F} (h : toFloat v = .ok x) :
    ∃ f', frameSet f a v = .ok f' := by
  unfold frameSet
  rw [h]
  simp only [bind, Except.bind]
  split_ifs <;> exact ⟨_, rfl⟩

omit [LinearOrder F] in
theorem loadFrame_get {t t' : Telescope F} {l : List (Key × Value F)} (hl : (l.map Prod.fst).Nodup)
    (h : loadFrame t l = (t', none)) (a : String) (ha : a ∈ frameAttributes) :
    match get? l (.text a) with
    | some v => ∃ x, toFloat v = .ok x ∧ frameGet t'.frame a = .flt x
    | none => frameGet t'.frame a = frameGet t.frame a := by
  induction l generalizing t with
  | nil => simp [loadFrame] at h; subst h; rfl
  | cons e l ih =>
    obtain ⟨k, v⟩ := e
    simp only [List.map_cons, List.nodup_cons] at hl
    rw [get?_cons]
    cases k with
    | int i =>
      unfold loadFrame at h
      simpa using ih hl.2 h
    | text s =>
      unfold loadFrame at h
      by_cases hs : s ∈ frameAttributes
      · rw [if_pos hs] at h
        cases hf : frameSet t.frame s v with
        | error e => rw [hf] at h; simp at h
        | ok f =>
          rw [hf] at h
          obtain ⟨x, hx, hg⟩ := frameSet_ok hs hf
          have := ih hl.2 h
          have hga := hg a ha
          by_cases hsa : s = a
          · subst hsa
            have hn : get? l (.text s) = none := (get?_none_iff l _).2 hl.1
            rw [hn] at this
            simp only at this
            simp only [if_true] at hga ⊢
            exact ⟨x, hx, this.trans hga⟩
          · rw [if_neg (by simpa using hsa)]
            rw [if_neg hsa] at hga
            cases hc : get? l (.text a) with
            | none => rw [hc] at this; simp only at this ⊢; exact this.trans hga
            | some w => rw [hc] at this; exact this
      · rw [if_neg hs] at h
        have hsa : ¬ s = a := fun h' => hs (h' ▸ ha)
        rw [if_neg (by simpa using hsa)]
        exact ih hl.2 h

omit [LinearOrder F] in
theorem loadFrame_succeeds {t : Telescope F} {l : List (Key × Value F)}
    (h : ∀ s v, (Key.text s, v) ∈ l → s ∈ frameAttributes → ∃ x, toFloat v = .ok x) : ∃ t', loadFrame t l = (t', none) := by
  induction l generalizing t with
  | nil => exact ⟨t, rfl⟩
  | cons e l ih =>
    obtain ⟨k, v⟩ := e
    have ih' : ∀ t : Telescope F, ∃ t', loadFrame t l = (t', none) := fun t =>
      ih (fun s v hm hs => h s v (List.mem_cons_of_mem _ hm) hs)
    cases k with
    | int i => exact ih' t
    | text s =>
      unfold loadFrame
      by_cases hs : s ∈ frameAttributes
      · rw [if_pos hs]
        obtain ⟨x, hx⟩ := h s v (List.mem_cons_self ..) hs
        obtain ⟨f, hf⟩ := frameSet_of_float (f := t.frame) (a := s) hx
        rw [hf]
        exact ih' _
      · rw [if_neg hs]
        exact ih' t

/-! ### Saving -/

omit [LinearOrder F] in
theorem dutType_not_mem (c : Cls) : "dut_type" ∉ c.attributes ∧ "dut_id" ∉ c.attributes := by
  cases c <;> simp [Cls.attributes, baseAttributes]

theorem attributes_nodup (c : Cls) : c.attributes.Nodup := by
  cases c <;> decide

omit [LinearOrder F] in
theorem get?_attrs (d : Dut F) (l : List String) (a : String) :
    get? (l.map (fun a => (Key.text a, getAttr d a))) (.text a) = if a ∈ l then some (getAttr d a) else none := by
  induction l with
  | nil => simp [get?]
  | cons b l ih =>
    rw [List.map_cons, get?_cons, ih]
    by_cases h : b = a
    · subst h; simp
    · have : ¬ a = b := fun h' => h h'.symm
      simp [h, this]

omit [LinearOrder F] in
theorem keys_dutConf (d : Dut F) : (dutConf d).map Prod.fst = (d.cls.attributes ++ ["dut_type"]).map Key.text := by
  unfold dutConf
  rw [keys_put, if_neg]
  · simp [List.map_map, Function.comp_def]
  · simp only [List.map_map, List.mem_map, Function.comp_apply, not_exists, not_and]
    intro a ha h
    simp at h
    exact (dutType_not_mem d.cls).1 (h ▸ ha)

omit [LinearOrder F] in
theorem get?_dutConf (d : Dut F) (a : String) :
    get? (dutConf d) (.text a) = if a = "dut_type" then some (.text d.cls.name)
      else if a ∈ d.cls.attributes then some (getAttr d a) else none := by
  unfold dutConf
  rw [get?_put, get?_attrs]
  by_cases h : a = "dut_type"
  · subst h; simp
  · have : ¬ ("dut_type" = a) := fun h' => h h'.symm
    simp [h, this]

/-- A DUT is read back from its configuration. -/
theorem parsed_dutConf {d : Dut F} (hd : ValidDut d) (i : ℤ) : parsed (.int i) (yaml (.dict (dutConf d))) = .ok d := by
  unfold parsed yaml
  set conf := dumpOrder (yamlDict (dutConf d)) with hconf
  have hget : ∀ a, get? conf (.text a) = (if a = "dut_type" then some (Value.text d.cls.name)
      else if a ∈ d.cls.attributes then some (yaml (getAttr d a)) else none) := by
    intro a
    rw [hconf, get?_yaml, get?_dutConf]
    split
    · simp [yaml]
    · split <;> rfl
  have hkeys : ∀ e ∈ conf, e.1 ∈ (d.cls.attributes ++ ["dut_type"]).map Key.text := by
    intro e he
    have := (keys_yaml_perm (dutConf d)).mem_iff (a := e.1)
    rw [← keys_dutConf, ← this]
    exact List.mem_map.2 ⟨e, he, rfl⟩
  have hkw : ∀ e ∈ conf.filter (fun e => e.1 ≠ .text "dut_type"), ∃ a ∈ d.cls.attributes, e.1 = .text a := by
    intro e he
    obtain ⟨he, hne⟩ := List.mem_filter.1 he
    obtain ⟨a, ha, hea⟩ := List.mem_map.1 (hkeys e he)
    rcases List.mem_append.1 ha with ha | ha
    · exact ⟨a, ha, hea.symm⟩
    · simp at ha
      subst ha
      simp [← hea] at hne
  have hargs : dutArgs (.dict conf) = .ok (.text d.cls.name, conf.filter (fun e => e.1 ≠ .text "dut_type")) := by
    unfold dutArgs
    simp only [hget, if_true, Option.getD_some]
    rw [if_pos]
    rw [List.all_eq_true]
    intro e he
    obtain ⟨a, ha, hea⟩ := hkw e he
    rw [hea]
    simp only [ne_eq, decide_not, Bool.not_eq_eq_eq_not, Bool.not_true, decide_eq_false_iff_not]
    intro h
    exact (dutType_not_mem d.cls).2 (h ▸ ha)
  rw [hargs]
  simp only [made, classOf_name]
  have hk2 : ∀ a ∈ d.cls.attributes, get? (conf.filter (fun e => e.1 ≠ .text "dut_type")) (.text a) = some (yaml (getAttr d a)) := by
    intro a ha
    have hne : a ≠ "dut_type" := fun h => (dutType_not_mem d.cls).1 (h ▸ ha)
    rw [get?_filter, if_neg (by simpa using hne), hget, if_neg hne, if_pos ha]
  have hnamed : named i (conf.filter (fun e => e.1 ≠ .text "dut_type")) = conf.filter (fun e => e.1 ≠ .text "dut_type") := by
    unfold named
    rw [hk2 "name" (base_mem _ (by simp [baseAttributes]))]
    rfl
  rw [hnamed]
  apply construct_value keeps_yaml hd _ hk2
  unfold knownArgs
  rw [List.all_eq_true]
  intro e he
  obtain ⟨a, ha, hea⟩ := hkw e he
  rw [List.any_eq_true]
  exact ⟨a, ha, by simp [hea]⟩

omit [LinearOrder F] in
theorem get?_frame (t : Telescope F) (l : List String) (s : List (Key × Value F)) (k : Key) :
    get? (l.foldl (fun s a => put s (.text a) (frameGet t.frame a)) s) k =
      match k with
      | .text a => if a ∈ l then some (frameGet t.frame a) else get? s k
      | .int _ => get? s k := by
  induction l generalizing s with
  | nil => cases k <;> simp
  | cons b l ih =>
    rw [List.foldl_cons, ih]
    cases k with
    | int i => simp [get?_put]
    | text a =>
      simp only [get?_put, Key.text.injEq, List.mem_cons]
      by_cases h1 : a ∈ l
      · simp [h1]
      · by_cases h2 : b = a
        · subst h2; simp
        · have : ¬ a = b := fun h' => h2 h'.symm
          simp [h1, h2, this]

omit [LinearOrder F] in
theorem get?_saveSection (t : Telescope F) (sec : List (Key × Value F)) (k : Key) :
    get? (saveSection t sec) k =
      if k = .text "DUT" then some (.dict (t.duts.foldl (fun s e => put s e.1 (.dict (dutConf e.2))) []))
      else match k with
        | .text a => if a ∈ frameAttributes then some (frameGet t.frame a) else get? sec k
        | .int _ => get? sec k := by
  unfold saveSection
  rw [get?_put, get?_frame]
  by_cases h : k = .text "DUT"
  · subst h; simp
  · have : ¬ (Key.text "DUT" = k) := fun h' => h h'.symm
    rw [if_neg h, if_neg this]

omit [LinearOrder F] in
theorem nodup_saveSection (t : Telescope F) {sec : List (Key × Value F)} (h : (sec.map Prod.fst).Nodup) :
    ((saveSection t sec).map Prod.fst).Nodup := by
  unfold saveSection
  apply nodup_put
  generalize frameAttributes = l
  induction l generalizing sec with
  | nil => exact h
  | cons a l ih => exact ih (nodup_put h _ _)

/-- Loading a saved section. -/
theorem loadSection_save {t : Telescope F} (ht : Usable t) {sec : List (Key × Value F)} (hs : (sec.map Prod.fst).Nodup)
    (t0 : Telescope F) : ∃ t', loadSection t0 (yaml (.dict (saveSection t sec))) = (t', none) ∧ t'.frame = t.frame ∧
      t'.file = t0.file ∧ ∀ k, get? t'.duts k = (get? t.duts k <|> get? t0.duts k) := by
  set ds : List (Key × Value F) := t.duts.foldl (fun s e => put s e.1 (.dict (dutConf e.2))) [] with hds
  have hgds : ∀ k, get? ds k = (get? t.duts k).map (fun d => Value.dict (dutConf d)) := by
    intro k
    have := get?_foldl_put t.duts (fun d => Value.dict (dutConf d)) ht.nodup [] k
    rw [hds, this]
    simp [get?]
  have hnds : (ds.map Prod.fst).Nodup := by
    have := nodup_foldl_put t.duts (fun d => Value.dict (dutConf d)) [] (by simp)
    exact this
  unfold loadSection yaml
  set sec' := dumpOrder (yamlDict (saveSection t sec)) with hsec
  have hget : ∀ k, get? sec' k = (get? (saveSection t sec) k).map yaml := fun k => get?_yaml _ _
  have hnd : (sec'.map Prod.fst).Nodup := (keys_yaml_perm _).nodup_iff.2 (nodup_saveSection t hs)
  have hdut : get? sec' (.text "DUT") = some (.dict (dumpOrder (yamlDict ds))) := by
    rw [hget, get?_saveSection, if_pos rfl]
    simp [yaml, hds]
  simp only [hdut]
  set l := dumpOrder (yamlDict ds) with hl
  have hlnd : (l.map Prod.fst).Nodup := (keys_yaml_perm _).nodup_iff.2 hnds
  have hgl : ∀ k, get? l k = (get? t.duts k).map (fun d => yaml (.dict (dutConf d))) := by
    intro k
    rw [hl, get?_yaml, hgds]
    cases get? t.duts k <;> rfl
  have hparse : ∀ e ∈ l, ∃ d, get? t.duts e.1 = some d ∧ parsed e.1 e.2 = .ok d := by
    intro e he
    have h1 := mem_get? hlnd (k := e.1) (v := e.2) he
    rw [hgl] at h1
    cases hd : get? t.duts e.1 with
    | none => rw [hd] at h1; simp at h1
    | some d =>
      rw [hd] at h1
      simp at h1
      have hm := get?_mem hd
      obtain ⟨i, hi⟩ := ht.ids _ hm
      refine ⟨d, rfl, ?_⟩
      rw [← h1]
      simp only at hi
      rw [hi]
      exact parsed_dutConf (ht.valid _ hm) i
  obtain ⟨t1, ht1⟩ := loadDuts_succeeds (t := t0) (l := l) (fun e he => (hparse e he).imp fun d h => h.2)
  obtain ⟨hf1, hfile1, _⟩ := loadDuts_ok ht1
  have hg1 := loadDuts_get hlnd ht1
  rw [ht1]
  simp only
  obtain ⟨t2, ht2⟩ := loadFrame_succeeds (t := t1) (l := sec') (by
    intro s v hm hsf
    have h1 := mem_get? hnd hm
    rw [hget, get?_saveSection] at h1
    have hne : ¬ (Key.text s = .text "DUT") := by
      intro h
      simp at h
      subst h
      simp [frameAttributes] at hsf
    rw [if_neg hne] at h1
    simp only [if_pos hsf, Option.map_some, Option.some.injEq] at h1
    rw [← h1]
    unfold frameGet
    split_ifs <;> exact ⟨_, rfl⟩)
  refine ⟨t2, ht2, ?_, ?_, ?_⟩
  · apply frame_ext
    intro a ha
    have := loadFrame_get hnd ht2 a ha
    have hne : ¬ (Key.text a = .text "DUT") := by
      intro h
      simp at h
      subst h
      simp [frameAttributes] at ha
    rw [hget, get?_saveSection, if_neg hne] at this
    simp only [if_pos ha, Option.map_some] at this
    obtain ⟨x, hx, hfx⟩ := this
    rw [hfx]
    revert hx
    unfold frameGet
    split_ifs <;> simp [yaml, toFloat] <;> exact fun h => h.symm
  · have := (loadFrame_duts t1 sec').2
    rw [ht2] at this
    rw [this, hfile1]
  · intro k
    have := (loadFrame_duts t1 sec').1
    rw [ht2] at this
    simp only at this
    rw [this, hg1 k, hgl]
    cases hd : get? t.duts k with
    | none => simp
    | some d =>
      have hm := get?_mem hd
      obtain ⟨i, hi⟩ := ht.ids _ hm
      simp only at hi
      subst hi
      simp [parsed_dutConf (ht.valid _ hm) i, Except.toOption]

end BTA.Tel
