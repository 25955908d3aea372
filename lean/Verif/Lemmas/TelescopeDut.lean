import Verif.Lemmas.Telescope
/-
Lemmas about constructing DUTs and setting their attributes.
-/
namespace BTA.Tel
open Spec

variable {F : Type} [PyFloat F] [LinearOrder F]

/-- The pixels of a DUT fit its class. -/
def PixelsFit : Cls → Option (Pixels F) → Prop
  | .dut, p => p = none
  | .scatteringPlane, p => p = none
  | .rectangular, p => p.isSome = true
  | .doubleColumns, p => p.isSome = true
  | c, p => p = c.pixels

/-- The sensor position of a DUT fits its class. -/
def PositionFits : Cls → Option (ℤ × ℤ) → Prop
  | .diamond3D, p => p.isSome = true
  | .diamondPseudo3D, p => p.isSome = true
  | _, p => p = none

/-- What holds for every DUT that can be built. -/
structure ValidDut (d : Dut F) : Prop where
  x : ∀ a b, d.xLimit = some (a, b) → a ≤ b
  y : ∀ a b, d.yLimit = some (a, b) → a ≤ b
  pixels : PixelsFit d.cls d.pixels
  position : PositionFits d.cls d.position

theorem foldl_min_le (l : List F) (x : F) : l.foldl min x ≤ x := by
  induction l generalizing x with
  | nil => exact le_refl _
  | cons y l ih => exact (ih _).trans (min_le_left _ _)

theorem le_foldl_max (l : List F) (x : F) : x ≤ l.foldl max x := by
  induction l generalizing x with
  | nil => exact le_refl _
  | cons y l ih => exact (le_max_left _ _).trans (ih _)

omit [LinearOrder F] in
theorem bind_ok {α β : Type} {m : Except Err α} {f : α → Except Err β} {b : β} (h : (m >>= f) = .ok b) :
    ∃ a, m = .ok a ∧ f a = .ok b := by
  cases m with
  | error e => simp [bind, Except.bind] at h
  | ok a => exact ⟨a, rfl, h⟩

theorem toLimit_le {v : Value F} {a b : F} (h : toLimit v = .ok (some (a, b))) : a ≤ b := by
  unfold toLimit at h
  split at h
  · simp at h
  · obtain ⟨l, _, h⟩ := bind_ok h
    obtain ⟨fs, _, h⟩ := bind_ok h
    cases fs with
    | nil => simp at h
    | cons x xs =>
      simp at h
      rw [← h.1, ← h.2]
      exact (foldl_min_le xs x).trans (le_foldl_max xs x)

omit [LinearOrder F] in
theorem pixelsArg_fits {c : Cls} {kw : List (Key × Value F)} {p} (h : pixelsArg c kw = .ok p) : PixelsFit c p := by
  cases c <;> simp only [pixelsArg, PixelsFit] at h ⊢ <;>
    first
    | (simp at h; exact h.symm)
    | (unfold pixelsArg.fromArgs at h
       obtain ⟨_, _, h⟩ := bind_ok h
       obtain ⟨_, _, h⟩ := bind_ok h
       obtain ⟨_, _, h⟩ := bind_ok h
       obtain ⟨_, _, h⟩ := bind_ok h
       obtain ⟨_, _, h⟩ := bind_ok h
       obtain ⟨_, _, h⟩ := bind_ok h
       obtain ⟨_, _, h⟩ := bind_ok h
       obtain ⟨_, _, h⟩ := bind_ok h
       simp at h
       rw [← h]; rfl)

omit [LinearOrder F] in
theorem positionArg_fits {c : Cls} {kw : List (Key × Value F)} {p} (h : positionArg c kw = .ok p) : PositionFits c p := by
  cases c <;> simp only [positionArg, PositionFits] at h ⊢ <;>
    first
    | (simp at h; exact h.symm)
    | (unfold positionArg.fromArgs at h
       obtain ⟨_, _, h⟩ := bind_ok h
       obtain ⟨_, _, h⟩ := bind_ok h
       simp at h
       rw [← h]; rfl)

/-- What a successful construction means. -/
theorem construct_ok {c : Cls} {kw : List (Key × Value F)} {d : Dut F} (h : construct c kw = .ok d) :
    knownArgs c kw = true ∧ d.cls = c ∧ toLimit (optional kw "x_limit" .null) = .ok d.xLimit ∧
    toLimit (optional kw "y_limit" .null) = .ok d.yLimit ∧ pixelsArg c kw = .ok d.pixels ∧
    positionArg c kw = .ok d.position := by
  unfold construct at h
  split at h
  · rename_i hk
    iterate 14 obtain ⟨_, _, h⟩ := bind_ok h
    obtain ⟨_, hx, h⟩ := bind_ok h
    obtain ⟨_, hy, h⟩ := bind_ok h
    obtain ⟨_, _, h⟩ := bind_ok h
    obtain ⟨_, _, h⟩ := bind_ok h
    obtain ⟨_, hp, h⟩ := bind_ok h
    obtain ⟨_, hq, h⟩ := bind_ok h
    simp at h
    subst h
    exact ⟨hk, rfl, hx, hy, hp, hq⟩
  · simp at h

theorem construct_valid {c : Cls} {kw : List (Key × Value F)} {d : Dut F} (h : construct c kw = .ok d) : ValidDut d := by
  obtain ⟨_, hc, hx, hy, hp, hq⟩ := construct_ok h
  refine ⟨fun a b hab => toLimit_le (hab ▸ hx), fun a b hab => toLimit_le (hab ▸ hy), hc ▸ pixelsArg_fits hp,
    hc ▸ positionArg_fits hq⟩

/-- Classes whose pixels can be assigned. -/
def Cls.free : Cls → Bool
  | .rectangular => true
  | .doubleColumns => true
  | _ => false

omit [LinearOrder F] in
theorem setPixels_ok {d d' : Dut F} {f} (h : setPixels d f = .ok d') :
    ∃ p, d' = { d with pixels := some p } := by
  unfold setPixels at h
  split at h
  · obtain ⟨p, _, h⟩ := bind_ok h
    simp at h
    exact ⟨p, h.symm⟩
  · simp at h

theorem pixel_attr_free {c : Cls} {a : String} (h : a ∈ c.attributes)
    (ha : a = "column_size" ∨ a = "row_size" ∨ a = "n_columns" ∨ a = "n_rows") : c.free = true := by
  rcases ha with rfl | rfl | rfl | rfl <;> cases c <;> simp [Cls.attributes, baseAttributes, Cls.free] at h ⊢

omit [LinearOrder F] in
theorem pixelsFit_free {c : Cls} (h : c.free = true) (p : Pixels F) : PixelsFit c (some p) := by
  cases c <;> first | exact absurd h (by decide) | rfl

theorem setAttr_valid {d d' : Dut F} {a : String} {v : Value F} (hd : ValidDut d) (h : setAttr d a v = .ok d') :
    ValidDut d' := by
  unfold setAttr at h
  by_cases hmem : a ∈ d.cls.attributes
  swap
  · rw [if_neg hmem] at h; simp at h
  rw [if_pos hmem] at h
  by_cases ha : a = "name"
  · rw [if_pos ha] at h
    obtain ⟨x, hx, h⟩ := bind_ok h
    simp at h; subst h; exact ⟨hd.x, hd.y, hd.pixels, hd.position⟩
  rw [if_neg ha] at h
  clear ha
  by_cases ha : a = "translation_x"
  · rw [if_pos ha] at h
    obtain ⟨x, hx, h⟩ := bind_ok h
    simp at h; subst h; exact ⟨hd.x, hd.y, hd.pixels, hd.position⟩
  rw [if_neg ha] at h
  clear ha
  by_cases ha : a = "translation_y"
  · rw [if_pos ha] at h
    obtain ⟨x, hx, h⟩ := bind_ok h
    simp at h; subst h; exact ⟨hd.x, hd.y, hd.pixels, hd.position⟩
  rw [if_neg ha] at h
  clear ha
  by_cases ha : a = "translation_z"
  · rw [if_pos ha] at h
    obtain ⟨x, hx, h⟩ := bind_ok h
    simp at h; subst h; exact ⟨hd.x, hd.y, hd.pixels, hd.position⟩
  rw [if_neg ha] at h
  clear ha
  by_cases ha : a = "rotation_alpha"
  · rw [if_pos ha] at h
    obtain ⟨x, hx, h⟩ := bind_ok h
    simp at h; subst h; exact ⟨hd.x, hd.y, hd.pixels, hd.position⟩
  rw [if_neg ha] at h
  clear ha
  by_cases ha : a = "rotation_beta"
  · rw [if_pos ha] at h
    obtain ⟨x, hx, h⟩ := bind_ok h
    simp at h; subst h; exact ⟨hd.x, hd.y, hd.pixels, hd.position⟩
  rw [if_neg ha] at h
  clear ha
  by_cases ha : a = "rotation_gamma"
  · rw [if_pos ha] at h
    obtain ⟨x, hx, h⟩ := bind_ok h
    simp at h; subst h; exact ⟨hd.x, hd.y, hd.pixels, hd.position⟩
  rw [if_neg ha] at h
  clear ha
  by_cases ha : a = "x_limit"
  · rw [if_pos ha] at h
    obtain ⟨x, hx, h⟩ := bind_ok h
    simp at h; subst h
    exact ⟨fun a b hab => toLimit_le (v := v) (by rw [hx]; exact congrArg _ hab), hd.y, hd.pixels, hd.position⟩
  rw [if_neg ha] at h
  clear ha
  by_cases ha : a = "y_limit"
  · rw [if_pos ha] at h
    obtain ⟨x, hx, h⟩ := bind_ok h
    simp at h; subst h
    exact ⟨hd.x, fun a b hab => toLimit_le (v := v) (by rw [hx]; exact congrArg _ hab), hd.pixels, hd.position⟩
  rw [if_neg ha] at h
  clear ha
  by_cases ha : a = "material_budget"
  · rw [if_pos ha] at h
    obtain ⟨x, hx, h⟩ := bind_ok h
    simp at h; subst h; exact ⟨hd.x, hd.y, hd.pixels, hd.position⟩
  rw [if_neg ha] at h
  clear ha
  by_cases ha : a = "intrinsic_resolution"
  · rw [if_pos ha] at h
    obtain ⟨x, hx, h⟩ := bind_ok h
    simp at h; subst h; exact ⟨hd.x, hd.y, hd.pixels, hd.position⟩
  rw [if_neg ha] at h
  clear ha
  by_cases ha : a = "column_size"
  · rw [if_pos ha] at h
    obtain ⟨p, rfl⟩ := setPixels_ok h
    exact ⟨hd.x, hd.y, pixelsFit_free (pixel_attr_free hmem (by simp [ha])) p, hd.position⟩
  rw [if_neg ha] at h
  clear ha
  by_cases ha : a = "row_size"
  · rw [if_pos ha] at h
    obtain ⟨p, rfl⟩ := setPixels_ok h
    exact ⟨hd.x, hd.y, pixelsFit_free (pixel_attr_free hmem (by simp [ha])) p, hd.position⟩
  rw [if_neg ha] at h
  clear ha
  by_cases ha : a = "n_columns"
  · rw [if_pos ha] at h
    obtain ⟨p, rfl⟩ := setPixels_ok h
    exact ⟨hd.x, hd.y, pixelsFit_free (pixel_attr_free hmem (by simp [ha])) p, hd.position⟩
  rw [if_neg ha] at h
  clear ha
  by_cases ha : a = "n_rows"
  · rw [if_pos ha] at h
    obtain ⟨p, rfl⟩ := setPixels_ok h
    exact ⟨hd.x, hd.y, pixelsFit_free (pixel_attr_free hmem (by simp [ha])) p, hd.position⟩
  rw [if_neg ha] at h
  clear ha
  by_cases ha : a = "sensor_position"
  · rw [if_pos ha] at h
    obtain ⟨x, hx, h⟩ := bind_ok h
    simp at h; subst h
    refine ⟨hd.x, hd.y, hd.pixels, ?_⟩
    subst ha
    have : d.cls = .diamond3D ∨ d.cls = .diamondPseudo3D := by
      revert hmem
      cases d.cls <;> simp [Cls.attributes, baseAttributes]
    rcases this with h | h <;> simp [h, PositionFits]
  rw [if_neg ha] at h
  clear ha
  simp at h

theorem built_valid {d : Dut F} (h : BuiltDut d) : ValidDut d := by
  induction h with
  | new h => exact construct_valid h
  | set _ h ih => exact setAttr_valid ih h

/-- A change of the representation of a value that keeps what the setters see. -/
structure Keeps (g : Value F → Value F) : Prop where
  text : ∀ s, g (.text s) = .text s
  null : g .null = .null
  flt : ∀ x, g (.flt x) = .flt x
  int : ∀ i, g (.int i) = .int i
  pair : ∀ a b, items (g (.tuple [.flt a, .flt b])) = .ok [.flt a, .flt b]
  ints : ∀ a b, items (g (.tuple [.int a, .int b])) = .ok [.int a, .int b]
  seq : ∀ l, g (.tuple l) ≠ .null

omit [PyFloat F] [LinearOrder F] in
theorem keeps_id : Keeps (F := F) id := ⟨fun _ => rfl, rfl, fun _ => rfl, fun _ => rfl, fun _ _ => rfl, fun _ _ => rfl,
  fun _ => by simp⟩

omit [PyFloat F] [LinearOrder F] in
theorem keeps_yaml : Keeps (F := F) yaml := ⟨fun _ => rfl, rfl, fun _ => rfl, fun _ => rfl, fun _ _ => rfl, fun _ _ => rfl,
  fun _ => by simp [yaml]⟩

theorem toLimit_value {g : Value F → Value F} (hg : Keeps g) (o : Option (F × F)) (ho : ∀ a b, o = some (a, b) → a ≤ b) :
    toLimit (g (pairValue o)) = .ok o := by
  cases o with
  | none => simp [pairValue, hg.null, toLimit]
  | some p =>
    obtain ⟨a, b⟩ := p
    have hab := ho a b rfl
    simp only [pairValue]
    have hi := hg.pair a b
    have hs := hg.seq [.flt a, .flt b]
    generalize g (.tuple [.flt a, .flt b]) = w at hi hs
    unfold toLimit
    split
    · exact absurd rfl hs
    · rw [hi]
      simp [bind, Except.bind, floats, toFloat, hab]

omit [LinearOrder F] in
theorem toPair_value {g : Value F → Value F} (hg : Keeps g) (o : Option (F × F)) : toPair (g (pairValue o)) = .ok o := by
  cases o with
  | none => simp [pairValue, hg.null, toPair]
  | some p =>
    obtain ⟨a, b⟩ := p
    simp only [pairValue]
    have hi := hg.pair a b
    have hs := hg.seq [.flt a, .flt b]
    generalize g (.tuple [.flt a, .flt b]) = w at hi hs
    unfold toPair
    split
    · exact absurd rfl hs
    · rw [hi]
      simp [bind, Except.bind, toFloat]

omit [LinearOrder F] in
theorem toPosition_value {g : Value F → Value F} (hg : Keeps g) (a b : ℤ) :
    toPosition (g (.tuple [.int a, .int b])) = .ok (a, b) := by
  unfold toPosition
  rw [hg.ints a b]
  simp [bind, Except.bind, toInt]

omit [LinearOrder F] in
theorem base_mem (c : Cls) {a : String} (h : a ∈ baseAttributes) : a ∈ c.attributes := by
  cases c <;> simp [Cls.attributes, h]

omit [LinearOrder F] in
theorem required_some {kw : List (Key × Value F)} {a : String} {v : Value F} (h : get? kw (.text a) = some v) :
    required kw a = .ok v := by
  simp [required, h]

omit [LinearOrder F] in
theorem optional_some {kw : List (Key × Value F)} {a : String} {v w : Value F} (h : get? kw (.text a) = some v) :
    optional kw a w = v := by
  simp [optional, h]

omit [LinearOrder F] in
theorem pixelsArg_value {g : Value F → Value F} (hg : Keeps g) {d : Dut F} (hd : PixelsFit d.cls d.pixels)
    {kw : List (Key × Value F)} (hkw : ∀ a ∈ d.cls.attributes, get? kw (.text a) = some (g (getAttr d a))) :
    pixelsArg d.cls kw = .ok d.pixels := by
  obtain ⟨cls, name, tx, ty, tz, ra, rb, rg, xl, yl, mb, ir, px, sp⟩ := d
  simp only at *
  cases cls <;> simp only [PixelsFit, pixelsArg] at hd ⊢ <;> try (rw [hd])
  all_goals
    cases px with
    | none => simp at hd
    | some p =>
      obtain ⟨a, b, m, n⟩ := p
      have h1 := hkw "column_size" (by simp [Cls.attributes])
      have h2 := hkw "row_size" (by simp [Cls.attributes])
      have h3 := hkw "n_columns" (by simp [Cls.attributes])
      have h4 := hkw "n_rows" (by simp [Cls.attributes])
      simp [getAttr, hg.flt, hg.int] at h1 h2 h3 h4
      simp [pixelsArg.fromArgs, required, h1, h2, h3, h4, bind, Except.bind, toFloat, toInt]

omit [LinearOrder F] in
theorem positionArg_value {g : Value F → Value F} (hg : Keeps g) {d : Dut F} (hd : PositionFits d.cls d.position)
    {kw : List (Key × Value F)} (hkw : ∀ a ∈ d.cls.attributes, get? kw (.text a) = some (g (getAttr d a))) :
    positionArg d.cls kw = .ok d.position := by
  obtain ⟨cls, name, tx, ty, tz, ra, rb, rg, xl, yl, mb, ir, px, sp⟩ := d
  simp only at *
  cases cls <;> simp only [PositionFits, positionArg] at hd ⊢ <;> try (rw [hd])
  all_goals
    cases sp with
    | none => simp at hd
    | some p =>
      obtain ⟨a, b⟩ := p
      have h1 := hkw "sensor_position" (by simp [Cls.attributes])
      simp [getAttr] at h1
      simp [positionArg.fromArgs, required, h1, bind, Except.bind, toPosition_value hg]

/-- A DUT is reconstructed from its attributes. -/
theorem construct_value {g : Value F → Value F} (hg : Keeps g) {d : Dut F} (hd : ValidDut d) {kw : List (Key × Value F)}
    (hk : knownArgs d.cls kw = true)
    (hkw : ∀ a ∈ d.cls.attributes, get? kw (.text a) = some (g (getAttr d a))) : construct d.cls kw = .ok d := by
  have hb : ∀ a ∈ baseAttributes, get? kw (.text a) = some (g (getAttr d a)) := fun a ha => hkw a (base_mem _ ha)
  have h1 := hb "name" (by simp [baseAttributes])
  have h2 := hb "translation_x" (by simp [baseAttributes])
  have h3 := hb "translation_y" (by simp [baseAttributes])
  have h4 := hb "translation_z" (by simp [baseAttributes])
  have h5 := hb "rotation_alpha" (by simp [baseAttributes])
  have h6 := hb "rotation_beta" (by simp [baseAttributes])
  have h7 := hb "rotation_gamma" (by simp [baseAttributes])
  have h8 := hb "x_limit" (by simp [baseAttributes])
  have h9 := hb "y_limit" (by simp [baseAttributes])
  have h10 := hb "material_budget" (by simp [baseAttributes])
  have h11 := hb "intrinsic_resolution" (by simp [baseAttributes])
  simp only [getAttr, if_true, hg.text, hg.flt, String.reduceEq, if_false] at h1 h2 h3 h4 h5 h6 h7 h8 h9 h10 h11
  have hp := pixelsArg_value hg hd.pixels hkw
  have hq := positionArg_value hg hd.position hkw
  unfold construct
  rw [if_pos hk, required_some h1, required_some h2, required_some h3, required_some h4, required_some h5, required_some h6,
    required_some h7, optional_some h8, optional_some h9, optional_some h10, optional_some h11, hp, hq,
    toLimit_value hg _ hd.x, toLimit_value hg _ hd.y, toPair_value hg]
  rfl

end BTA.Tel
