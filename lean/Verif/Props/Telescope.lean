import Verif.Lemmas.TelescopeLoad
import Mathlib.Data.Rat.Floor
import Mathlib.Algebra.Order.Ring.Rat
/-
C36: a saved configuration is loaded again, C37: order of the DUTs, C71: what loading changes, C72: DUTs made from DUTs, C73: what
holds for the attributes of every DUT.
-/
namespace BTA.Tel
open Spec

variable {F : Type} [PyFloat F] [LinearOrder F]

/-! ### Rational numbers as floats, for the examples -/

/-- Decimal numbers are represented exactly; strings are not converted. -/
instance ratFloat : PyFloat ℚ where
  ofInt i := i
  dec m e := m / 10 ^ e
  ofText _ := none
  trunc x := some (if 0 ≤ x then ⌊x⌋ else ⌈x⌉)
  intOfText _ := none
  repr x := toString x

/-- Arguments for a DUT. -/
def args (z : ℚ) (more : List (Key × Value ℚ)) : List (Key × Value ℚ) :=
  [(.text "translation_x", .flt 1), (.text "translation_y", .int 2), (.text "translation_z", .flt z),
   (.text "rotation_alpha", .flt 0), (.text "rotation_beta", .flt 0), (.text "rotation_gamma", .flt (1 / 2))] ++ more

/-- A telescope with three DUTs, added in the order 2, 0, 1. -/
def small : Telescope ℚ :=
  run Telescope.new
    [.add "Mimosa26" 2 (args 20 []), .add "FEI4" 0 (args 0 [(.text "x_limit", .list [.int 5, .int (-5)])]),
     .add "RectangularPixelDut" 1 (args 10 [(.text "name", .text "middle"), (.text "column_size", .flt 50),
       (.text "row_size", .flt 25), (.text "n_columns", .int 4), (.text "n_rows", .int 8)])]

theorem run_made {t : Telescope F} (ht : Made t) {ops : List (Op F)} (h : ∀ i d, Op.set i d ∈ ops → BuiltDut d) :
    Made (run t ops) := by
  induction ops generalizing t with
  | nil => exact ht
  | cons op ops ih =>
    have h' : ∀ i d, Op.set i d ∈ ops → BuiltDut d := fun i d hm => h i d (List.mem_cons_of_mem _ hm)
    cases op with
    | add cls id kw =>
      unfold run
      split
      · rename_i t' ha
        exact ih (.add ht ha) h'
      · exact ih ht h'
    | set id d =>
      unfold run
      exact ih (.item id ht (h id d (List.mem_cons_self ..))) h'

theorem small_made : Made small := by
  apply run_made Made.new
  intro i d h
  simp at h

/-! ### C36 -/

/-- C36: after saving a telescope, a new telescope that loads the file has the same DUTs and the same attributes. The file is the one
given to `save_configuration` or the one used before, with and without `keep_others`. -/
theorem C36_save_load {t t1 : Telescope F} (ht : Made t) {arg : Option String} {keep : Bool} {files files' : Files F}
    (hfiles : ∀ f v, files f = some v → Distinct v) (h : t.save arg keep files = .ok (t1, files')) :
    ∃ f t', t1.file = some f ∧ (∀ g, arg = some g → g ≠ "" → f = g) ∧
      Telescope.new.load (some f) files' = (t', none) ∧ t'.frame = t.frame ∧ ∀ k, t'.item k = t.item k := by
  have hu := made_usable ht
  obtain ⟨f, conf, hf, hc, hfs⟩ := save_ok h
  obtain ⟨hu1, hfile, hne, hframe, hduts⟩ := hu.fileName hf
  simp only at hf hc hfs hu1 hfile hframe hduts
  -- the section in the configuration that is written
  obtain ⟨sec, top, hconf, hnd⟩ : ∃ sec top, conf = .dict (put top (.text "TELESCOPE") (.dict (saveSection t1 sec))) ∧
      (sec.map Prod.fst).Nodup := by
    unfold saveValue at hc
    split at hc
    · rename_i c hc'
      split at hc
      · simp at hc
        exact ⟨[], c, hc.symm, by simp⟩
      · rename_i sec hs
        simp at hc
        refine ⟨sec, c, hc.symm, ?_⟩
        cases keep with
        | false =>
          simp at hc'
          subst hc'
          simp [get?] at hs
        | true =>
          simp only [if_true] at hc'
          cases hv : files f with
          | none =>
            rw [hv] at hc'
            simp at hc'
            subst hc'
            simp [get?] at hs
          | some v =>
            rw [hv] at hc'
            simp at hc'
            subst hc'
            cases hfiles f _ hv with
            | dict hn hall =>
              cases hall _ (get?_mem hs) with
              | dict hn' _ => exact hn'
      · simp at hc
    · simp at hc
  obtain ⟨t', hload, h1, _, h3⟩ := loadSection_save hu1 hnd ({ Telescope.new with file := some f } : Telescope F)
  refine ⟨f, t', hfile, ?_, ?_, h1.trans hframe, ?_⟩
  · intro g hg hne
    subst hg
    simp [Telescope.fileName, hne] at hf
    exact hf.1.symm
  · unfold Telescope.load Telescope.fileName
    simp only [if_neg hne, hfs, if_true]
    rw [hconf]
    unfold loadValue
    simp only [yaml]
    rw [get?_yaml, get?_put]
    simp only [if_true, Option.map_some]
    exact hload
  · intro k
    unfold Telescope.item
    rw [h3 k, hduts]
    cases get? t.duts k <;> simp [Telescope.new, get?]

/-- The telescope `small` is saved and loaded. -/
example : (∃ t' : Telescope ℚ, ∃ files' : Files ℚ,
    small.save (some "a.yaml") false (fun _ => none) = .ok ({ small with file := some "a.yaml" }, files') ∧
    Telescope.new.load (some "a.yaml") files' = (t', none) ∧ t'.frame = small.frame ∧
    ∀ k, t'.item k = small.item k) ∧ small.duts.length = 3 := by
  constructor
  · obtain ⟨files', h⟩ : ∃ files', small.save (some "a.yaml") false (fun _ => none) =
        .ok ({ small with file := some "a.yaml" }, files') := ⟨_, rfl⟩
    obtain ⟨f, t', h1, h2, h3, h4, h5⟩ := C36_save_load small_made (by simp) h
    simp at h1
    subst h1
    exact ⟨t', files', h, h3, h4, h5⟩
  · decide +kernel

/-- C36: `save_configuration` succeeds exactly if a file is known and, with `keep_others`, the file does not exist or contains a
dictionary in which the section TELESCOPE is missing or a dictionary. Otherwise it raises and no file is changed (in particular, an
empty file raises). -/
theorem C36_save_succeeds (t : Telescope F) (f : String) (hf : f ≠ "") (keep : Bool) (files : Files F) :
    (∃ r, t.save (some f) keep files = .ok r) ↔
      (keep = true → ∀ v, files f = some v → ∃ d, v = .dict d ∧
        ∀ sec, d.lookup (.text "TELESCOPE") = some sec → ∃ s, sec = .dict s) := by
  have hname : t.fileName (some f) = .ok (f, { t with file := some f }) := by simp [Telescope.fileName, hf]
  have key : ∀ v, (∃ c, saveValue { t with file := some f } v = .ok c) ↔
      ∃ d, v = .dict d ∧ ∀ sec, d.lookup (.text "TELESCOPE") = some sec → ∃ s, sec = .dict s := by
    intro v
    unfold saveValue
    split
    · rename_i c
      split
      · rename_i hn
        refine ⟨fun _ => ⟨c, rfl, ?_⟩, fun _ => ⟨_, rfl⟩⟩
        intro sec hs
        have hn' : c.lookup (.text "TELESCOPE") = none := hn
        rw [hs] at hn'
        simp at hn'
      · rename_i sec hs
        refine ⟨fun _ => ⟨c, rfl, ?_⟩, fun _ => ⟨_, rfl⟩⟩
        intro sec' hs'
        have hs2 : c.lookup (.text "TELESCOPE") = some (.dict sec) := hs
        rw [hs2] at hs'
        simp at hs'
        exact ⟨sec, hs'.symm⟩
      · rename_i w hns hw
        refine ⟨fun ⟨_, h⟩ => by simp at h, fun ⟨d, hd, hall⟩ => ?_⟩
        simp at hd
        subst hd
        obtain ⟨s, hs⟩ := hall w hw
        exact absurd hs (hns s)
    · rename_i hnd
      refine ⟨fun ⟨_, h⟩ => by simp at h, fun ⟨d, hd, _⟩ => absurd hd (hnd d)⟩
  have hsave : (∃ r, t.save (some f) keep files = .ok r) ↔
      ∃ c, saveValue { t with file := some f } (if keep then (files f).getD (.dict []) else .dict []) = .ok c := by
    constructor
    · rintro ⟨r, hr⟩
      obtain ⟨f', conf, hf', hc, _⟩ := save_ok hr
      rw [hname] at hf'
      simp at hf'
      obtain ⟨rfl, h2⟩ := hf'
      exact ⟨conf, by rw [h2]; exact hc⟩
    · rintro ⟨c, hc⟩
      unfold Telescope.save
      rw [hname]
      simp only [bind, Except.bind]
      rw [hc]
      exact ⟨_, rfl⟩
  rw [hsave, key]
  cases keep with
  | false => simp
  | true =>
    simp only [if_true, forall_const]
    cases hv : files f with
    | none => simp
    | some v => simp

/-- An empty file, to be kept, raises; a file with other sections does not. -/
example : ¬ (∃ r, small.save (some "a.yaml") true (fun _ => some .null) = .ok r) ∧
    (∃ r, small.save (some "a.yaml") true (fun _ => some (.dict [(.text "RUN", .int 3)])) = .ok r) := by
  rw [C36_save_succeeds _ _ (by decide), C36_save_succeeds _ _ (by decide)]
  have h : (Key.text "TELESCOPE" == Key.text "RUN") = false := by decide
  simp [List.lookup, h]

/-- C36: with `keep_others`, everything in the file stays as it was except the attributes of the telescope and the section DUT.
All other files stay as they were. -/
theorem C36_keep_others {t t1 : Telescope F} {f : String} {files files' : Files F} (hf : f ≠ "") {old : Value F}
    (hold : files f = some old) (h : t.save (some f) true files = .ok (t1, files')) :
    ∃ new, files' f = some new ∧
      (∀ s p, s ≠ Step.key (.text "TELESCOPE") → content new (s :: p) = content old (s :: p)) ∧
      (∀ s p, s ≠ Step.key (.text "DUT") → (∀ a ∈ frameAttributes, s ≠ Step.key (.text a)) →
        content new (.key (.text "TELESCOPE") :: s :: p) = content old (.key (.text "TELESCOPE") :: s :: p)) ∧
      ∀ g, g ≠ f → files' g = files g := by
  obtain ⟨f', conf, hf', hc, hfs⟩ := save_ok h
  simp [Telescope.fileName, hf] at hf'
  obtain ⟨rfl, _⟩ := hf'
  simp only at hfs hc
  simp only [if_true, hold, Option.getD_some] at hc
  refine ⟨yaml conf, by simp [hfs], ?_, ?_, ?_⟩
  · intro s p hs
    rw [content_yaml]
    have hchild : child conf s = child old s := by
      unfold saveValue at hc
      split at hc
      · rename_i c
        have : ∀ w, child (Value.dict (put c (.text "TELESCOPE") w)) s = child (.dict c) s := by
          intro w
          cases s with
          | index n => rfl
          | key k =>
            have := get?_put c (.text "TELESCOPE") k w
            have hk : ¬ Key.text "TELESCOPE" = k := fun h => hs (by rw [h])
            rw [if_neg hk] at this
            exact this
        split at hc
        · simp at hc; rw [← hc]; exact this _
        · simp at hc; rw [← hc]; exact this _
        · simp at hc
      · simp at hc
    simp only [content, hchild]
  · intro s p hs1 hs2
    rw [content_yaml]
    have hsec : ∀ sec : List (Key × Value F), child (.dict (saveSection t1 sec)) s = child (.dict sec) s := by
      intro sec
      cases s with
      | index n => rfl
      | key k =>
        have := get?_saveSection t1 sec k
        have hk : ¬ k = Key.text "DUT" := fun h => hs1 (by rw [h])
        rw [if_neg hk] at this
        have h3 : child (.dict (saveSection t1 sec)) (.key k) = get? (saveSection t1 sec) k := rfl
        rw [h3, this]
        cases k with
        | int i => rfl
        | text a =>
          have : a ∉ frameAttributes := fun h => hs2 a h rfl
          simp only [if_neg this]
          rfl
    unfold saveValue at hc
    split at hc
    · rename_i c
      split at hc
      · rename_i hn
        simp at hc; rw [← hc]
        have h1 : child (Value.dict (put c (.text "TELESCOPE") (.dict (saveSection t1 [])))) (.key (.text "TELESCOPE")) =
            some (.dict (saveSection t1 [])) := by
          have := get?_put c (.text "TELESCOPE") (.text "TELESCOPE") (Value.dict (saveSection t1 []))
          rw [if_pos rfl] at this
          exact this
        have h2 : child (Value.dict c) (.key (.text "TELESCOPE")) = none := hn
        simp only [content, h1, h2, Option.bind_some, Option.bind_none, hsec]
        cases s <;> simp [child]
      · rename_i sec hs
        simp at hc; rw [← hc]
        have h1 : child (Value.dict (put c (.text "TELESCOPE") (.dict (saveSection t1 sec)))) (.key (.text "TELESCOPE")) =
            some (.dict (saveSection t1 sec)) := by
          have := get?_put c (.text "TELESCOPE") (.text "TELESCOPE") (Value.dict (saveSection t1 sec))
          rw [if_pos rfl] at this
          exact this
        have h2 : child (Value.dict c) (.key (.text "TELESCOPE")) = some (.dict sec) := hs
        simp only [content, h1, h2, Option.bind_some, hsec]
      · simp at hc
    · simp at hc
  · intro g hg
    simp [hfs, hg]

/-- A file with another section and an unknown entry in the section TELESCOPE. -/
example : ∃ t1 files' new, small.save (some "a.yaml") true
      (fun _ => some (.dict [(.text "RUN", .list [.int 3]), (.text "TELESCOPE", .dict [(.text "beam", .text "e"),
        (.text "translation_x", .flt 7)])])) = .ok (t1, files') ∧ files' "a.yaml" = some new ∧
    content new [.key (.text "RUN"), .index 0] = some (.int 3) ∧
    content new [.key (.text "TELESCOPE"), .key (.text "beam")] = some (.text "e") ∧
    content new [.key (.text "TELESCOPE"), .key (.text "translation_x")] = some (.flt 0) := by
  obtain ⟨⟨t1, files'⟩, h⟩ := (C36_save_succeeds small "a.yaml" (by decide) true
      (fun _ => some (.dict [(.text "RUN", .list [.int 3]), (.text "TELESCOPE", .dict [(.text "beam", .text "e"),
        (.text "translation_x", .flt 7)])]))).2 (by
    have h : (Key.text "TELESCOPE" == Key.text "RUN") = false := by decide
    simp [List.lookup, h])
  obtain ⟨new, h1, h2, h3, _⟩ := C36_keep_others (by decide) rfl h
  refine ⟨t1, files', new, h, h1, ?_, ?_, ?_⟩
  · rw [h2 _ _ (by simp)]; rfl
  · rw [h3 _ _ (by simp) (by simp [frameAttributes])]; rfl
  · obtain ⟨f', conf, hf', hc, hfs⟩ := save_ok h
    simp [Telescope.fileName] at hf'
    obtain ⟨rfl, rfl⟩ := hf'
    simp only at hfs
    have h1' : some (yaml conf) = some new := by rw [← h1, hfs]; rfl
    simp only [Option.some.injEq] at h1'
    rw [← h1', content_yaml]
    have : saveValue (F := ℚ) { small with file := some "a.yaml" } (.dict [(.text "RUN", .list [.int 3]),
        (.text "TELESCOPE", .dict [(.text "beam", .text "e"), (.text "translation_x", .flt 7)])]) = .ok conf := hc
    have h0 : small.frame.tx = 0 := by decide +kernel
    have k1 : (Key.text "TELESCOPE" == Key.text "RUN") = false := by decide
    simp [saveValue, get?, List.lookup, k1] at this
    rw [← this]
    have k2 : ∀ k k' : Key, k ≠ k' → (k == k') = false := fun k k' h => by simpa using h
    simp [content, child, put, saveSection, frameAttributes, List.lookup, frameGet, node, h0, k2]

/-- C36: without `keep_others` the file contains nothing but the section TELESCOPE. -/
theorem C36_replaces_others {t t1 : Telescope F} {f : String} {files files' : Files F} (hf : f ≠ "")
    (h : t.save (some f) false files = .ok (t1, files')) :
    ∃ new, files' f = some new ∧ (∀ s p, s ≠ Step.key (.text "TELESCOPE") → content new (s :: p) = none) ∧
      (∀ s p, s ≠ Step.key (.text "DUT") → (∀ a ∈ frameAttributes, s ≠ Step.key (.text a)) →
        content new (.key (.text "TELESCOPE") :: s :: p) = none) ∧
      ∀ g, g ≠ f → files' g = files g := by
  have h' : t.save (some f) true (fun g => if g = f then some (.dict []) else files g) = .ok (t1, files') := by
    obtain ⟨f', conf, hf', hc, hfs⟩ := save_ok h
    have hf2 := hf'
    simp [Telescope.fileName, hf] at hf'
    obtain ⟨rfl, h2⟩ := hf'
    simp only at hf2 hc hfs
    unfold Telescope.save
    rw [hf2]
    simp only [bind, Except.bind, if_true, Option.getD_some]
    have hc' : saveValue t1 (.dict []) = .ok conf := by simpa using hc
    rw [hc']
    simp only [Except.ok.injEq, Prod.mk.injEq, true_and]
    rw [hfs]
    funext g
    by_cases hg : g = f <;> simp [hg]
  obtain ⟨new, h1, h2, h3, h4⟩ := C36_keep_others hf (old := .dict []) (by simp) h'
  refine ⟨new, h1, fun s p hs => ?_, fun s p hs1 hs2 => ?_, fun g hg => by simpa [hg] using h4 g hg⟩
  · rw [h2 s p hs]; cases s <;> simp [content, child]
  · rw [h3 s p hs1 hs2]; simp [content, child]

/-- C36: the restriction to integer ids is needed. A DUT can be stored under a string, it is saved, but the file cannot be loaded. -/
theorem C36_text_id_not_loaded (t0 : Telescope F) (d : Dut F) (s f : String) (hf : f ≠ "") (files files' : Files F) (t1 : Telescope F)
    (h : (Telescope.new.setItem (.text s) d).save (some f) false files = .ok (t1, files')) :
    (t0.load (some f) files').2 = some .valueError := by
  obtain ⟨f', conf, hf', hc, hfs⟩ := save_ok h
  simp [Telescope.fileName, hf] at hf'
  obtain ⟨rfl, ht1⟩ := hf'
  simp only at hc hfs
  simp [saveValue, get?, put] at hc
  unfold Telescope.load Telescope.fileName
  simp only [if_neg hf, hfs, if_true]
  rw [← hc]
  unfold loadValue
  simp only [yaml]
  rw [get?_yaml]
  have h1 : ∀ w : Value F, get? [(Key.text "TELESCOPE", w)] (.text "TELESCOPE") = some w := fun w => by simp [get?, List.lookup]
  rw [h1]
  simp only [Option.map_some, yaml, loadSection]
  rw [get?_yaml, get?_saveSection, if_pos rfl]
  have hd : t1.duts = [(.text s, d)] := by rw [← ht1]; rfl
  simp only [Option.map_some, hd, List.foldl_cons, List.foldl_nil, put, yaml, yamlDict]
  have hone : dumpOrder [(Key.text s, Value.dict (dumpOrder (yamlDict (dutConf d))))] =
      [(Key.text s, Value.dict (dumpOrder (yamlDict (dutConf d))))] := by
    unfold dumpOrder
    split <;> rfl
  rw [hone]
  unfold loadDuts
  rw [loadDut_eq]
  have hp : parsed (.text s) (Value.dict (dumpOrder (yamlDict (dutConf d)))) = .error .valueError := by
    unfold parsed
    -- the arguments are accepted, as in `parsed_dutConf`
    have hget : get? (dumpOrder (yamlDict (dutConf d))) (.text "dut_type") = some (.text d.cls.name) := by
      rw [get?_yaml, get?_dutConf, if_pos rfl]; rfl
    have hargs : dutArgs (Value.dict (dumpOrder (yamlDict (dutConf d)))) =
        .ok (.text d.cls.name, (dumpOrder (yamlDict (dutConf d))).filter (fun e => e.1 ≠ .text "dut_type")) := by
      unfold dutArgs
      simp only [hget, Option.getD_some]
      rw [if_pos]
      rw [List.all_eq_true]
      intro e he
      obtain ⟨he, hne⟩ := List.mem_filter.1 he
      have hk : e.1 ∈ (d.cls.attributes ++ ["dut_type"]).map Key.text := by
        rw [← keys_dutConf, ← (keys_yaml_perm (dutConf d)).mem_iff]
        exact List.mem_map.2 ⟨e, he, rfl⟩
      obtain ⟨a, ha, hea⟩ := List.mem_map.1 hk
      rw [← hea]
      simp only [ne_eq, decide_not, Bool.not_eq_eq_eq_not, Bool.not_true, decide_eq_false_iff_not]
      rintro rfl
      rcases List.mem_append.1 ha with ha | ha
      · exact (dutType_not_mem d.cls).2 ha
      · simp at ha
    rw [hargs]
  rw [hp]

/-! ### C37 -/

theorem run_usable {t : Telescope F} (hn : (t.duts.map Prod.fst).Nodup) (hi : ∀ e ∈ t.duts, ∃ i : ℤ, e.1 = .int i)
    (ops : List (Op F)) : ((run t ops).duts.map Prod.fst).Nodup ∧ (∀ e ∈ (run t ops).duts, ∃ i : ℤ, e.1 = .int i) ∧
      ∀ i, get? (run t ops).duts (.int i) = (latest i ops <|> get? t.duts (.int i)) := by
  have step : ∀ (t : Telescope F) (j : ℤ) (d : Dut F), (∀ e ∈ t.duts, ∃ i : ℤ, e.1 = .int i) →
      ∀ e ∈ (t.setItem (.int j) d).duts, ∃ i : ℤ, e.1 = .int i := by
    intro t j d h e he
    rcases mem_put he with rfl | he
    · exact ⟨j, rfl⟩
    · exact h e he
  have lat : ∀ (op : Op F) (ops : List (Op F)) (i : ℤ), latest i (op :: ops) = (latest i ops <|> stored i op) := by
    intro op ops i
    unfold latest
    rw [List.reverse_cons, List.findSome?_append]
    simp only [List.findSome?_cons, List.findSome?_nil]
    cases List.findSome? (stored i) ops.reverse <;> cases stored i op <;> rfl
  induction ops generalizing t with
  | nil => exact ⟨hn, hi, fun i => by simp [run, latest]⟩
  | cons op ops ih =>
    have fin : ∀ (j : ℤ) (d : Dut F), (∀ i, stored i op = if j = i then some d else none) →
        run t (op :: ops) = run (t.setItem (.int j) d) ops →
        ((run t (op :: ops)).duts.map Prod.fst).Nodup ∧ (∀ e ∈ (run t (op :: ops)).duts, ∃ i : ℤ, e.1 = .int i) ∧
        ∀ i, get? (run t (op :: ops)).duts (.int i) = (latest i (op :: ops) <|> get? t.duts (.int i)) := by
      intro j d hst hr
      obtain ⟨h1, h2, h3⟩ := ih (t := t.setItem (.int j) d) (nodup_put hn _ _) (step t j d hi)
      rw [hr]
      refine ⟨h1, h2, fun i => ?_⟩
      rw [h3 i, lat, hst i]
      have : get? (t.setItem (.int j) d).duts (.int i) = if j = i then some d else get? t.duts (.int i) := by
        have := get?_put t.duts (.int j) (.int i) d
        simp only [Key.int.injEq] at this
        exact this
      rw [this]
      by_cases hji : j = i
      · simp only [hji, if_true]; cases latest i ops <;> rfl
      · simp only [hji, if_false]; cases latest i ops <;> rfl
    cases op with
    | set j d =>
      exact fin j d (fun i => rfl) rfl
    | add cls j kw =>
      cases hm : made cls j kw with
      | ok d =>
        refine fin j d (fun i => ?_) ?_
        · rw [stored_add, hm]; rfl
        · simp only [run]
          rw [addDut_eq, hm]
      | error e =>
        have hr : run t (.add cls j kw :: ops) = run t ops := by
          simp only [run]
          rw [addDut_eq, hm]
        obtain ⟨h1, h2, h3⟩ := ih hn hi
        rw [hr]
        refine ⟨h1, h2, fun i => ?_⟩
        rw [h3 i, lat, stored_add, hm]
        have : (if j = i then (Except.error e : Except Err (Dut F)).toOption else none) = none := by
          split <;> rfl
        rw [this]
        cases latest i ops <;> rfl

omit [PyFloat F] [LinearOrder F] in
theorem insertEntry_pairwise {α : Type} (e : Key × α) (l : List (Key × α)) (he : ∃ i : ℤ, e.1 = .int i)
    (hi : ∀ e ∈ l, ∃ i : ℤ, e.1 = .int i) (h : l.Pairwise (fun a b => keyLe a.1 b.1 = true)) :
    (insertEntry e l).Pairwise (fun a b => keyLe a.1 b.1 = true) := by
  induction l with
  | nil => simp [insertEntry]
  | cons a l ih =>
    obtain ⟨i, hi1⟩ := he
    obtain ⟨ha, hl⟩ := List.pairwise_cons.1 h
    have hil : ∀ e ∈ l, ∃ i : ℤ, e.1 = .int i := fun e he => hi e (List.mem_cons_of_mem _ he)
    obtain ⟨j, hj⟩ := hi a (List.mem_cons_self ..)
    unfold insertEntry
    split
    · rename_i hle
      refine List.pairwise_cons.2 ⟨?_, h⟩
      intro b hb
      rcases List.mem_cons.1 hb with rfl | hb
      · exact hle
      · obtain ⟨k, hk⟩ := hil b hb
        have h1 := ha b hb
        rw [hi1, hj] at hle
        rw [hj, hk] at h1
        rw [hi1, hk]
        simp only [keyLe, decide_eq_true_eq] at *
        omega
    · rename_i hle
      refine List.pairwise_cons.2 ⟨?_, ih hil hl⟩
      intro b hb
      rcases List.mem_cons.1 ((perm_insertEntry e l).mem_iff.1 hb) with rfl | hb
      · rw [hi1, hj] at hle ⊢
        simp only [keyLe, decide_eq_true_eq] at *
        omega
      · exact ha b hb

omit [PyFloat F] [LinearOrder F] in
theorem sortEntries_pairwise {α : Type} (l : List (Key × α)) (hi : ∀ e ∈ l, ∃ i : ℤ, e.1 = .int i) :
    (sortEntries l).Pairwise (fun a b => keyLe a.1 b.1 = true) := by
  induction l with
  | nil => simp [sortEntries]
  | cons e l ih =>
    have hil : ∀ e ∈ l, ∃ i : ℤ, e.1 = .int i := fun e he => hi e (List.mem_cons_of_mem _ he)
    exact insertEntry_pairwise e _ (hi e (List.mem_cons_self ..))
      (fun e he => hil e ((perm_sortEntries l).mem_iff.1 he)) (ih hil)

/-- The integer of a key. -/
def idOf : Key → ℤ
  | .int i => i
  | .text _ => 0

/-- C37: after any sequence of operations that add or replace DUTs, iterating the telescope gives, in the order of increasing ids and
exactly once per id, the DUT that was stored last under the id. -/
theorem C37_iteration (ops : List (Op F)) :
    ∃ l : List (ℤ × Dut F), (run Telescope.new ops).iter = .ok (l.map Prod.snd) ∧
      l.Pairwise (fun a b => a.1 < b.1) ∧ ∀ i d, (i, d) ∈ l ↔ latest i ops = some d := by
  obtain ⟨hn, hi, hg⟩ := run_usable (t := (Telescope.new : Telescope F)) (by simp [Telescope.new]) (by simp [Telescope.new]) ops
  set t := run Telescope.new ops
  have hperm := perm_sortEntries t.duts
  have his : ∀ e ∈ sortEntries t.duts, ∃ i : ℤ, e.1 = .int i := fun e he => hi e (hperm.mem_iff.1 he)
  have hns : ((sortEntries t.duts).map Prod.fst).Nodup := (hperm.map Prod.fst).nodup_iff.2 hn
  refine ⟨(sortEntries t.duts).map (fun e => (idOf e.1, e.2)), ?_, ?_, ?_⟩
  · unfold Telescope.iter
    rw [if_pos]
    · simp [List.map_map, Function.comp_def]
    · unfold sortable
      rw [Bool.or_eq_true]
      left
      rw [List.all_eq_true]
      intro k hk
      obtain ⟨e, he, rfl⟩ := List.mem_map.1 hk
      obtain ⟨i, hi⟩ := hi e he
      rw [hi]
  · rw [List.pairwise_map]
    have h1 := sortEntries_pairwise t.duts hi
    have h2 : (sortEntries t.duts).Pairwise (fun a b => a.1 ≠ b.1) := by
      rw [List.Nodup, List.pairwise_map] at hns; exact hns
    refine (h1.and h2).imp_of_mem ?_
    intro a b ha hb hab
    obtain ⟨i, hi⟩ := his a ha
    obtain ⟨j, hj⟩ := his b hb
    rw [hi, hj] at hab ⊢
    simp only [keyLe, decide_eq_true_eq, ne_eq, Key.int.injEq, idOf] at hab ⊢
    omega
  · intro i d
    have hgi := hg i
    have h0 : get? (Telescope.new : Telescope F).duts (.int i) = none := rfl
    rw [h0] at hgi
    have : latest i ops = get? t.duts (.int i) := by rw [hgi]; cases latest i ops <;> rfl
    rw [this]
    constructor
    · intro hm
      obtain ⟨e, he, hid⟩ := List.mem_map.1 hm
      obtain ⟨j, hj⟩ := his e he
      obtain ⟨k, d'⟩ := e
      simp only [Prod.mk.injEq] at hid hj
      subst hj
      obtain ⟨h1, rfl⟩ := hid
      simp only [idOf] at h1
      subst h1
      exact mem_get? hn (hperm.mem_iff.1 he)
    · intro h
      exact List.mem_map.2 ⟨(.int i, d), hperm.mem_iff.2 (get?_mem h), rfl⟩

/-- The DUTs of `small`, added as 2, 0, 1. -/
example : (small.iter.toOption.map (fun l => l.map (fun d => (d.name, d.cls)))) =
    some [("DUT0", .fei4), ("middle", .rectangular), ("DUT2", .mimosa26)] := by decide +kernel

/-- C37: the length of the telescope is the number of DUTs in the iteration, also for telescopes made by loading. -/
theorem C37_made {t : Telescope F} (ht : Made t) :
    ∃ l : List (ℤ × Dut F), t.iter = .ok (l.map Prod.snd) ∧ l.length = t.duts.length ∧
      l.Pairwise (fun a b => a.1 < b.1) ∧ ∀ i d, (i, d) ∈ l ↔ t.item (.int i) = .ok d := by
  have hu := made_usable ht
  have hi := hu.ids
  have hn := hu.nodup
  have hperm := perm_sortEntries t.duts
  have his : ∀ e ∈ sortEntries t.duts, ∃ i : ℤ, e.1 = .int i := fun e he => hi e (hperm.mem_iff.1 he)
  have hns : ((sortEntries t.duts).map Prod.fst).Nodup := (hperm.map Prod.fst).nodup_iff.2 hn
  refine ⟨(sortEntries t.duts).map (fun e => (idOf e.1, e.2)), ?_, ?_, ?_, ?_⟩
  · unfold Telescope.iter
    rw [if_pos]
    · simp [List.map_map, Function.comp_def]
    · unfold sortable
      rw [Bool.or_eq_true]
      left
      rw [List.all_eq_true]
      intro k hk
      obtain ⟨e, he, rfl⟩ := List.mem_map.1 hk
      obtain ⟨i, hi⟩ := hi e he
      rw [hi]
  · simp [hperm.length_eq]
  · rw [List.pairwise_map]
    have h1 := sortEntries_pairwise t.duts hi
    have h2 : (sortEntries t.duts).Pairwise (fun a b => a.1 ≠ b.1) := by
      rw [List.Nodup, List.pairwise_map] at hns; exact hns
    refine (h1.and h2).imp_of_mem ?_
    intro a b ha hb hab
    obtain ⟨i, hi⟩ := his a ha
    obtain ⟨j, hj⟩ := his b hb
    rw [hi, hj] at hab ⊢
    simp only [keyLe, decide_eq_true_eq, ne_eq, Key.int.injEq, idOf] at hab ⊢
    omega
  · intro i d
    have hit : t.item (.int i) = .ok d ↔ get? t.duts (.int i) = some d := by
      unfold Telescope.item
      cases get? t.duts (.int i) <;> simp
    rw [hit]
    constructor
    · intro hm
      obtain ⟨e, he, hid⟩ := List.mem_map.1 hm
      obtain ⟨j, hj⟩ := his e he
      obtain ⟨k, d'⟩ := e
      simp only [Prod.mk.injEq] at hid hj
      subst hj
      obtain ⟨h1, rfl⟩ := hid
      simp only [idOf] at h1
      subst h1
      exact mem_get? hn (hperm.mem_iff.1 he)
    · intro h
      exact List.mem_map.2 ⟨(.int i, d), hperm.mem_iff.2 (get?_mem h), rfl⟩

/-! ### C71 -/

/-- C71: loading a file into a telescope that has DUTs. A DUT in the file becomes what `add_dut` makes of its entry (the class is
`RectangularPixelDut` if the entry names none), the DUTs that are not in the file stay, and so do the attributes of the telescope that
are not in the file. -/
theorem C71_load_merges {t t' : Telescope F} {f : String} (hf : f ≠ "") {files : Files F} {conf sec duts : List (Key × Value F)}
    (hfile : files f = some (.dict conf)) (hsec : conf.lookup (.text "TELESCOPE") = some (.dict sec))
    (hduts : sec.lookup (.text "DUT") = some (.dict duts)) (hd1 : Distinct (.dict sec)) (hd2 : Distinct (.dict duts))
    (h : t.load (some f) files = (t', none)) :
    (∀ k v, duts.lookup k = some v → ∃ (i : ℤ) (entry : List (Key × Value F)) (cls : String) (d : Dut F),
      k = .int i ∧ v = .dict entry ∧
      (entry.lookup (.text "dut_type")).getD (.text "RectangularPixelDut") = .text cls ∧
      stored i (.add cls i (entry.filter (fun e => e.1 ≠ .text "dut_type"))) = some d ∧ t'.item k = .ok d) ∧
    (∀ k, duts.lookup k = none → t'.item k = t.item k) ∧
    (∀ a ∈ frameAttributes, sec.lookup (.text a) = none → frameGet t'.frame a = frameGet t.frame a) ∧
    (∀ a ∈ frameAttributes, ∀ v, sec.lookup (.text a) = some v → ∃ x, toFloat v = .ok x ∧ frameGet t'.frame a = .flt x) := by
  unfold Telescope.load Telescope.fileName at h
  simp only [if_neg hf, hfile] at h
  unfold loadValue at h
  have hs1 : get? conf (.text "TELESCOPE") = some (.dict sec) := hsec
  have hs2 : get? sec (.text "DUT") = some (.dict duts) := hduts
  simp only [hs1, loadSection, hs2] at h
  cases hd1 with
  | dict hn1 _ =>
  cases hd2 with
  | dict hn2 _ =>
  cases hl : loadDuts { t with file := some f } duts with
  | mk t1 e =>
  cases e with
  | some e => rw [hl] at h; simp at h
  | none =>
  rw [hl] at h
  simp only at h
  have hg := loadDuts_get hn2 hl
  obtain ⟨hfr, _, hall⟩ := loadDuts_ok hl
  have hdu := (loadFrame_duts t1 sec).1
  rw [h] at hdu
  simp only at hdu
  have hitem : ∀ k, t'.item k = match get? t1.duts k with | some d => .ok d | none => .error .keyError := by
    intro k; unfold Telescope.item; rw [hdu]; cases get? t1.duts k <;> rfl
  refine ⟨?_, ?_, ?_, ?_⟩
  · intro k v hv
    have hv' : get? duts k = some v := hv
    obtain ⟨d, hd⟩ := hall (k, v) (get?_mem hv')
    simp only at hd
    have hgk := hg k
    rw [hv'] at hgk
    simp only [hd, Except.toOption] at hgk
    have hd0 := hd
    unfold parsed at hd
    cases hargs : dutArgs v with
    | error e => rw [hargs] at hd; simp at hd
    | ok p =>
      obtain ⟨ty, kw⟩ := p
      rw [hargs] at hd
      unfold dutArgs at hargs
      cases v with
      | dict entry =>
        simp only at hargs
        split at hargs
        · simp only [Except.ok.injEq, Prod.mk.injEq] at hargs
          obtain ⟨hty, hkw⟩ := hargs
          cases ty with
          | text cls =>
            cases k with
            | text s => simp at hd
            | int i =>
              simp only at hd
              refine ⟨i, entry, cls, d, rfl, rfl, hty, ?_, ?_⟩
              · rw [hkw, stored_add, if_pos rfl, hd]; rfl
              · rw [hitem, hgk]
          | _ => simp at hd
        · simp at hargs
      | _ => simp at hargs
  · intro k hk
    have hk' : get? duts k = none := hk
    have hgk := hg k
    rw [hk'] at hgk
    simp only at hgk
    rw [hitem, hgk]
    rfl
  · intro a ha hn
    have := loadFrame_get hn1 h a ha
    have hn' : get? sec (.text a) = none := hn
    rw [hn'] at this
    simp only at this
    rw [this, hfr]
  · intro a ha v hv
    have := loadFrame_get hn1 h a ha
    have hv' : get? sec (.text a) = some v := hv
    rw [hv'] at this
    exact this

/-- Loading a file with DUT 1 into `small`. -/
example : let files : Files ℚ := fun _ => some (.dict [(.text "TELESCOPE", .dict [(.text "DUT", .dict [(.int 1, .dict
      ([(.text "dut_type", .text "Timepix3")] ++ args 11 []))]), (.text "rotation_beta", .int 1)])])
    ((small.load (some "b.yaml") files).2 = none) ∧
    ((small.load (some "b.yaml") files).1.iter.toOption.map (fun l => l.map (fun d => (d.name, d.cls)))) =
      some [("DUT0", .fei4), ("DUT1", .timepix3), ("DUT2", .mimosa26)] ∧
    (small.load (some "b.yaml") files).1.frame.rb = 1 := by
  decide +kernel

/-- C71: a file that does not exist, or a file name that was never given, raises and changes no DUT; a file without a section
TELESCOPE changes nothing. -/
theorem C71_nothing_loaded (t : Telescope F) (arg : Option String) (files : Files F) (k : Key) :
    (∀ f, arg = some f → f ≠ "" → files f = none →
      (t.load arg files).2 = some .valueError ∧ (t.load arg files).1.item k = t.item k) ∧
    (arg = none → t.file = none → t.load arg files = (t, some .attributeError)) ∧
    (∀ f conf, arg = some f → f ≠ "" → files f = some (.dict conf) → conf.lookup (.text "TELESCOPE") = none →
      (t.load arg files).2 = none ∧ (t.load arg files).1.item k = t.item k ∧ (t.load arg files).1.frame = t.frame) := by
  refine ⟨?_, ?_, ?_⟩
  · intro f ha hf hn
    subst ha
    simp [Telescope.load, Telescope.fileName, hf, hn, Telescope.item]
  · intro ha hf
    subst ha
    simp [Telescope.load, Telescope.fileName, Telescope.fileName.known, hf]
  · intro f conf ha hf hc hn
    subst ha
    have hn' : get? conf (.text "TELESCOPE") = none := hn
    simp [Telescope.load, Telescope.fileName, hf, hc, Telescope.item, loadValue, hn']

example : ∃ f : String, f ≠ "" ∧ (fun _ => none : Files ℚ) f = none := ⟨"x", by decide, rfl⟩

/-! ### C72 -/

/-- C72: `from_dut` without further arguments gives an equal DUT if the class is the same. -/
theorem C72_copy {d : Dut F} (hd : BuiltDut d) : fromDut d.cls d [] = .ok d := by
  have hfil : d.cls.attributes.filter (fun a => a ∈ d.cls.attributes) = d.cls.attributes := by
    rw [List.filter_eq_self]; intro a ha; simpa using ha
  unfold fromDut
  simp only [hfil, List.foldl_nil]
  apply construct_value (keeps_id (F := F)) (built_valid hd)
  · unfold knownArgs
    rw [List.all_eq_true]
    intro e he
    obtain ⟨a, ha, rfl⟩ := List.mem_map.1 he
    rw [List.any_eq_true]
    exact ⟨a, ha, by simp⟩
  · intro a ha
    rw [get?_attrs, if_pos ha]
    rfl

/-- C72: `from_dut` with another class copies the position, the limits, the material budget and the resolution; the pixels are those of
the new class. -/
theorem C72_other_class {d : Dut F} (hd : BuiltDut d) (c : Cls)
    (hc : c ≠ .rectangular ∧ c ≠ .doubleColumns ∧ c ≠ .diamond3D ∧ c ≠ .diamondPseudo3D) :
    fromDut c d [] = .ok { d with cls := c, pixels := c.pixels, position := none } := by
  have hattr : c.attributes = baseAttributes := by
    cases c <;> simp [Cls.attributes] at hc ⊢
  have hfil : c.attributes.filter (fun a => a ∈ d.cls.attributes) = baseAttributes := by
    rw [hattr, List.filter_eq_self]; intro a ha; simpa using base_mem d.cls ha
  have hv := built_valid hd
  unfold fromDut
  simp only [hfil, List.foldl_nil]
  have hd' : ValidDut { d with cls := c, pixels := c.pixels, position := none } := by
    refine ⟨hv.x, hv.y, ?_, ?_⟩
    · revert hc; cases c <;> simp [PixelsFit, Cls.pixels]
    · revert hc; cases c <;> simp [PositionFits]
  refine construct_value (keeps_id (F := F)) hd' ?_ ?_
  · unfold knownArgs
    rw [List.all_eq_true]
    intro e he
    obtain ⟨a, ha, rfl⟩ := List.mem_map.1 he
    rw [List.any_eq_true]
    exact ⟨a, by simp only; rw [hattr]; exact ha, by simp⟩
  · intro a ha
    simp only [hattr] at ha
    rw [get?_attrs, if_pos ha]
    simp only [baseAttributes, List.mem_cons, List.not_mem_nil, or_false] at ha
    rcases ha with rfl | rfl | rfl | rfl | rfl | rfl | rfl | rfl | rfl | rfl | rfl <;> simp [getAttr]

/-- A DUT with free pixels, and the FEI4 made from it. -/
example : ∃ d d' : Dut ℚ, small.item (.int 1) = .ok d ∧ fromDut .fei4 d [] = .ok d' ∧ d'.tz = 10 ∧ d'.name = "middle" ∧
    d'.pixels = some ⟨250, 50, 80, 336⟩ := by
  have h1 : (small.item (.int 1)).toOption.isSome = true := by decide +kernel
  cases h : small.item (.int 1) with
  | error e => rw [h] at h1; simp [Except.toOption] at h1
  | ok d =>
    have h2 : ((small.item (.int 1)).toOption.bind (fun d => (fromDut .fei4 d []).toOption)).map
        (fun d' => (d'.tz, d'.name, d'.pixels)) = some (10, "middle", some ⟨250, 50, 80, 336⟩) := by decide +kernel
    rw [h] at h2
    cases h3 : fromDut .fei4 d [] with
    | error e => simp [Except.toOption, h3] at h2
    | ok d' =>
      simp [Except.toOption, h3] at h2
      exact ⟨d, d', rfl, h3, h2.1, h2.2.1, h2.2.2⟩

/-! ### C73 -/

/-- C73: whatever arguments a DUT was made with and whatever was assigned to its attributes, the limits are in order; the size and
number of pixels of a DUT are those of its class unless the class is a rectangular pixel DUT with free pixels. -/
theorem C73_every_dut {d : Dut F} (hd : BuiltDut d) :
    (∀ a b, d.xLimit = some (a, b) → a ≤ b) ∧ (∀ a b, d.yLimit = some (a, b) → a ≤ b) ∧
    (d.cls ≠ .rectangular → d.cls ≠ .doubleColumns → d.pixels = d.cls.pixels) ∧
    (d.cls = .rectangular ∨ d.cls = .doubleColumns → d.pixels ≠ none) := by
  have hv := built_valid hd
  refine ⟨hv.x, hv.y, ?_, ?_⟩
  · intro h1 h2
    have := hv.pixels
    revert this h1 h2
    cases d.cls <;> simp [PixelsFit, Cls.pixels]
  · intro h
    have := hv.pixels
    rcases h with h | h <;> rw [h] at this <;> intro hn <;> rw [hn] at this <;> simp [PixelsFit] at this

/-- C73: the limits are the smallest and the largest of the given numbers, whatever their order. -/
theorem C73_limit {d d' : Dut F} {l : List F} (hl : l ≠ []) (h : setAttr d "x_limit" (.list (l.map Value.flt)) = .ok d') :
    ∃ a b, d'.xLimit = some (a, b) ∧ a ∈ l ∧ b ∈ l ∧ ∀ x ∈ l, a ≤ x ∧ x ≤ b := by
  have hfl : ∀ l : List F, floats (l.map Value.flt) = .ok l := by
    intro l
    induction l with
    | nil => rfl
    | cons x l ih => simp [floats, toFloat, ih, bind, Except.bind]
  have hmin : ∀ (l : List F) (x : F), l.foldl min x ∈ x :: l ∧ ∀ y ∈ x :: l, l.foldl min x ≤ y := by
    intro l
    induction l with
    | nil => intro x; simp
    | cons y l ih =>
      intro x
      obtain ⟨h1, h2⟩ := ih (min x y)
      have hm := h2 (min x y) (List.mem_cons_self ..)
      refine ⟨?_, ?_⟩
      · rw [List.foldl_cons]
        rcases List.mem_cons.1 h1 with h1 | h1
        · rw [h1]
          rcases min_choice x y with h | h <;> rw [h] <;> simp
        · simp [h1]
      · intro z hz
        rw [List.foldl_cons]
        rcases List.mem_cons.1 hz with rfl | hz
        · exact hm.trans (min_le_left _ _)
        · rcases List.mem_cons.1 hz with rfl | hz
          · exact hm.trans (min_le_right _ _)
          · exact h2 z (List.mem_cons_of_mem _ hz)
  have hmax : ∀ (l : List F) (x : F), l.foldl max x ∈ x :: l ∧ ∀ y ∈ x :: l, y ≤ l.foldl max x := by
    intro l
    induction l with
    | nil => intro x; simp
    | cons y l ih =>
      intro x
      obtain ⟨h1, h2⟩ := ih (max x y)
      have hm := h2 (max x y) (List.mem_cons_self ..)
      refine ⟨?_, ?_⟩
      · rw [List.foldl_cons]
        rcases List.mem_cons.1 h1 with h1 | h1
        · rw [h1]
          rcases max_choice x y with h | h <;> rw [h] <;> simp
        · simp [h1]
      · intro z hz
        rw [List.foldl_cons]
        rcases List.mem_cons.1 hz with rfl | hz
        · exact (le_max_left _ _).trans hm
        · rcases List.mem_cons.1 hz with rfl | hz
          · exact (le_max_right _ _).trans hm
          · exact h2 z (List.mem_cons_of_mem _ hz)
  cases l with
  | nil => exact absurd rfl hl
  | cons x l =>
    have hlim : toLimit (Value.list ((x :: l).map Value.flt)) = .ok (some (l.foldl min x, l.foldl max x)) := by
      have h1 := hfl (x :: l)
      unfold toLimit
      simp only [items, bind, Except.bind, h1]
    unfold setAttr at h
    rw [if_pos (base_mem _ (by simp [baseAttributes]))] at h
    simp only [String.reduceEq, if_false, if_true, hlim, bind, Except.bind] at h
    simp at h
    subst h
    exact ⟨_, _, rfl, (hmin l x).1, (hmax l x).1, fun y hy => ⟨(hmin l x).2 y hy, (hmax l x).2 y hy⟩⟩

/-- C73: an attribute that the class does not list cannot be assigned, for example the size of the pixels of a FEI4. -/
theorem C73_refused (d : Dut F) (a : String) (v : Value F) (h : a ∉ d.cls.attributes) : setAttr d a v = .error .valueError := by
  unfold setAttr
  rw [if_neg h]

omit [LinearOrder F] in
theorem setPixels_some {d d' : Dut F} {f} (h : setPixels d f = .ok d') :
    ∃ p p', d.pixels = some p ∧ f p = .ok p' ∧ d' = { d with pixels := some p' } := by
  unfold setPixels at h
  split at h
  · next p hp =>
    obtain ⟨p', hp', h⟩ := bind_ok h
    simp at h
    exact ⟨p, p', hp, hp', h.symm⟩
  · simp at h

/-- C73: an assignment changes the assigned attribute only. -/
theorem C73_assign {d d' : Dut F} {a : String} {v : Value F} (h : setAttr d a v = .ok d') :
    d'.cls = d.cls ∧ ∀ b, b ≠ a → getAttr d' b = getAttr d b := by
  unfold setAttr at h
  by_cases hmem : a ∈ d.cls.attributes
  swap
  · rw [if_neg hmem] at h; simp at h
  rw [if_pos hmem] at h
  by_cases ha : a = "name"
  · rw [if_pos ha] at h
    obtain ⟨x, hx, h⟩ := bind_ok h
    simp only [Except.ok.injEq] at h
    subst h
    refine ⟨rfl, fun b hb => ?_⟩
    rw [ha] at hb
    simp only [getAttr, hb, if_false]
  rw [if_neg ha] at h
  clear ha
  by_cases ha : a = "translation_x"
  · rw [if_pos ha] at h
    obtain ⟨x, hx, h⟩ := bind_ok h
    simp only [Except.ok.injEq] at h
    subst h
    refine ⟨rfl, fun b hb => ?_⟩
    rw [ha] at hb
    simp only [getAttr, hb, if_false]
  rw [if_neg ha] at h
  clear ha
  by_cases ha : a = "translation_y"
  · rw [if_pos ha] at h
    obtain ⟨x, hx, h⟩ := bind_ok h
    simp only [Except.ok.injEq] at h
    subst h
    refine ⟨rfl, fun b hb => ?_⟩
    rw [ha] at hb
    simp only [getAttr, hb, if_false]
  rw [if_neg ha] at h
  clear ha
  by_cases ha : a = "translation_z"
  · rw [if_pos ha] at h
    obtain ⟨x, hx, h⟩ := bind_ok h
    simp only [Except.ok.injEq] at h
    subst h
    refine ⟨rfl, fun b hb => ?_⟩
    rw [ha] at hb
    simp only [getAttr, hb, if_false]
  rw [if_neg ha] at h
  clear ha
  by_cases ha : a = "rotation_alpha"
  · rw [if_pos ha] at h
    obtain ⟨x, hx, h⟩ := bind_ok h
    simp only [Except.ok.injEq] at h
    subst h
    refine ⟨rfl, fun b hb => ?_⟩
    rw [ha] at hb
    simp only [getAttr, hb, if_false]
  rw [if_neg ha] at h
  clear ha
  by_cases ha : a = "rotation_beta"
  · rw [if_pos ha] at h
    obtain ⟨x, hx, h⟩ := bind_ok h
    simp only [Except.ok.injEq] at h
    subst h
    refine ⟨rfl, fun b hb => ?_⟩
    rw [ha] at hb
    simp only [getAttr, hb, if_false]
  rw [if_neg ha] at h
  clear ha
  by_cases ha : a = "rotation_gamma"
  · rw [if_pos ha] at h
    obtain ⟨x, hx, h⟩ := bind_ok h
    simp only [Except.ok.injEq] at h
    subst h
    refine ⟨rfl, fun b hb => ?_⟩
    rw [ha] at hb
    simp only [getAttr, hb, if_false]
  rw [if_neg ha] at h
  clear ha
  by_cases ha : a = "x_limit"
  · rw [if_pos ha] at h
    obtain ⟨x, hx, h⟩ := bind_ok h
    simp only [Except.ok.injEq] at h
    subst h
    refine ⟨rfl, fun b hb => ?_⟩
    rw [ha] at hb
    simp only [getAttr, hb, if_false]
  rw [if_neg ha] at h
  clear ha
  by_cases ha : a = "y_limit"
  · rw [if_pos ha] at h
    obtain ⟨x, hx, h⟩ := bind_ok h
    simp only [Except.ok.injEq] at h
    subst h
    refine ⟨rfl, fun b hb => ?_⟩
    rw [ha] at hb
    simp only [getAttr, hb, if_false]
  rw [if_neg ha] at h
  clear ha
  by_cases ha : a = "material_budget"
  · rw [if_pos ha] at h
    obtain ⟨x, hx, h⟩ := bind_ok h
    simp only [Except.ok.injEq] at h
    subst h
    refine ⟨rfl, fun b hb => ?_⟩
    rw [ha] at hb
    simp only [getAttr, hb, if_false]
  rw [if_neg ha] at h
  clear ha
  by_cases ha : a = "intrinsic_resolution"
  · rw [if_pos ha] at h
    obtain ⟨x, hx, h⟩ := bind_ok h
    simp only [Except.ok.injEq] at h
    subst h
    refine ⟨rfl, fun b hb => ?_⟩
    rw [ha] at hb
    simp only [getAttr, hb, if_false]
  rw [if_neg ha] at h
  clear ha
  by_cases ha : a = "column_size"
  · rw [if_pos ha] at h
    obtain ⟨p, p', hp, hx, rfl⟩ := setPixels_some h
    obtain ⟨y, hy, hx⟩ := bind_ok hx
    simp only [Except.ok.injEq] at hx
    subst hx
    refine ⟨rfl, fun b hb => ?_⟩
    rw [ha] at hb
    simp only [getAttr, hp, hb, if_false, Option.map_some]
  rw [if_neg ha] at h
  clear ha
  by_cases ha : a = "row_size"
  · rw [if_pos ha] at h
    obtain ⟨p, p', hp, hx, rfl⟩ := setPixels_some h
    obtain ⟨y, hy, hx⟩ := bind_ok hx
    simp only [Except.ok.injEq] at hx
    subst hx
    refine ⟨rfl, fun b hb => ?_⟩
    rw [ha] at hb
    simp only [getAttr, hp, hb, if_false, Option.map_some]
  rw [if_neg ha] at h
  clear ha
  by_cases ha : a = "n_columns"
  · rw [if_pos ha] at h
    obtain ⟨p, p', hp, hx, rfl⟩ := setPixels_some h
    obtain ⟨y, hy, hx⟩ := bind_ok hx
    simp only [Except.ok.injEq] at hx
    subst hx
    refine ⟨rfl, fun b hb => ?_⟩
    rw [ha] at hb
    simp only [getAttr, hp, hb, if_false, Option.map_some]
  rw [if_neg ha] at h
  clear ha
  by_cases ha : a = "n_rows"
  · rw [if_pos ha] at h
    obtain ⟨p, p', hp, hx, rfl⟩ := setPixels_some h
    obtain ⟨y, hy, hx⟩ := bind_ok hx
    simp only [Except.ok.injEq] at hx
    subst hx
    refine ⟨rfl, fun b hb => ?_⟩
    rw [ha] at hb
    simp only [getAttr, hp, hb, if_false, Option.map_some]
  rw [if_neg ha] at h
  clear ha
  by_cases ha : a = "sensor_position"
  · rw [if_pos ha] at h
    obtain ⟨x, hx, h⟩ := bind_ok h
    simp only [Except.ok.injEq] at h
    subst h
    refine ⟨rfl, fun b hb => ?_⟩
    rw [ha] at hb
    simp only [getAttr, hb, if_false]
  rw [if_neg ha] at h
  clear ha
  simp at h

/-- C73: a number assigned to a position, angle, material budget or pixel size is read back. -/
theorem C73_read_back {d d' : Dut F} {a : String} {x : F} (h : setAttr d a (.flt x) = .ok d')
    (ha : a ∈ ["translation_x", "translation_y", "translation_z", "rotation_alpha", "rotation_beta", "rotation_gamma", "material_budget",
      "column_size", "row_size"]) : getAttr d' a = .flt x := by
  unfold setAttr at h
  by_cases hmem : a ∈ d.cls.attributes
  swap
  · rw [if_neg hmem] at h; simp at h
  rw [if_pos hmem] at h
  simp only [List.mem_cons, List.not_mem_nil, or_false] at ha
  rcases ha with rfl | rfl | rfl | rfl | rfl | rfl | rfl | rfl | rfl <;>
    simp only [String.reduceEq, if_true, if_false, toFloat, bind, Except.bind, Except.ok.injEq] at h
  case _ => subst h; simp [getAttr]
  case _ => subst h; simp [getAttr]
  case _ => subst h; simp [getAttr]
  case _ => subst h; simp [getAttr]
  case _ => subst h; simp [getAttr]
  case _ => subst h; simp [getAttr]
  case _ => subst h; simp [getAttr]
  all_goals
    unfold setPixels at h
    split at h
    · simp only [bind, Except.bind, Except.ok.injEq] at h
      subst h
      simp [getAttr]
    · simp at h

/-- C73: the same for the numbers of pixels and for the name. -/
theorem C73_read_back_int {d d' : Dut F} {a : String} {i : ℤ} (h : setAttr d a (.int i) = .ok d') (ha : a ∈ ["n_columns", "n_rows"]) :
    getAttr d' a = .int i := by
  unfold setAttr at h
  by_cases hmem : a ∈ d.cls.attributes
  swap
  · rw [if_neg hmem] at h; simp at h
  rw [if_pos hmem] at h
  simp only [List.mem_cons, List.not_mem_nil, or_false] at ha
  rcases ha with rfl | rfl <;>
    simp only [String.reduceEq, if_true, if_false] at h <;>
  · unfold setPixels at h
    split at h
    · simp only [toInt, bind, Except.bind, Except.ok.injEq] at h
      subst h
      simp [getAttr]
    · simp at h

theorem C73_read_back_name {d d' : Dut F} {t : String} (h : setAttr d "name" (.text t) = .ok d') : getAttr d' "name" = .text t := by
  unfold setAttr at h
  by_cases hmem : "name" ∈ d.cls.attributes
  swap
  · rw [if_neg hmem] at h; simp at h
  rw [if_pos hmem] at h
  simp only [if_true, toStr, bind, Except.bind, Except.ok.injEq] at h
  subst h
  simp [getAttr]

/-- C72: a keyword argument of `from_dut` has the effect of an assignment to the copy. -/
theorem C72_keyword {d e : Dut F} (hd : BuiltDut d) {a : String} {v : Value F} (h : setAttr d a v = .ok e) :
    fromDut d.cls d [(.text a, getAttr e a)] = .ok e := by
  have he := built_valid (BuiltDut.set hd h)
  obtain ⟨hcls, hother⟩ := C73_assign h
  have hmem : a ∈ d.cls.attributes := by
    by_contra hn
    rw [C73_refused d a v hn] at h
    simp at h
  have hfil : d.cls.attributes.filter (fun a => a ∈ d.cls.attributes) = d.cls.attributes := by
    rw [List.filter_eq_self]; intro a ha; simpa using ha
  unfold fromDut
  simp only [hfil, List.foldl_cons, List.foldl_nil]
  rw [← hcls]
  apply construct_value (keeps_id (F := F)) he
  · unfold knownArgs
    rw [List.all_eq_true]
    intro x hx
    rw [List.any_eq_true]
    have hkey : ∃ b ∈ e.cls.attributes, x.1 = .text b := by
      rcases mem_put hx with rfl | hx
      · exact ⟨a, by rw [hcls]; exact hmem, rfl⟩
      · obtain ⟨b, hb, rfl⟩ := List.mem_map.1 hx
        exact ⟨b, hb, rfl⟩
    obtain ⟨b, hb, hx⟩ := hkey
    exact ⟨b, hb, by simpa using hx⟩
  · intro b hb
    rw [get?_put]
    by_cases hab : a = b
    · subst hab; simp
    · rw [if_neg (by simpa using hab), get?_attrs, if_pos hb, hother b (fun h => hab h.symm)]
      rfl

example : (small.item (.int 0)).toOption.map (fun d => (d.xLimit, (setAttr d "column_size" (.flt 1)).toOption.isSome)) =
    some (some (-5, 5), false) := by decide +kernel

/-- A copy with another height. -/
example : (small.item (.int 0)).toOption.bind (fun d => (fromDut d.cls d [(.text "translation_z", .flt 7)]).toOption.map
    (fun e => (e.tz, e.tx == d.tx, (setAttr d "translation_z" (.flt 7)).toOption.map (fun e => e.tz)))) =
    some (7, true, some 7) := by decide +kernel

end BTA.Tel
