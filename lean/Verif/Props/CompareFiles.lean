import Verif.Lemmas.CompareFiles
import Mathlib.Algebra.Order.Ring.Rat
import Mathlib.Algebra.Field.Rat
/-
C181: exact comparison of files. C182: comparison with a tolerance.
-/
namespace BTA.CompareFiles.Props
open BTA.CompareFiles BTA.Spec

variable {T C : Type} [DecidableEq T] [DecidableEq C]

/-- The number of rows of the first node is not a multiple of the number of rows read at once, or the first node has rows and the second not more. -/
def LengthSeen (cs : Nat) (a b : Node T C) : Prop :=
  ¬ max 1 (cs / a.inner.prod) ∣ a.rows.length ∨ (a.rows ≠ [] ∧ b.rows.length ≤ a.rows.length)

theorem readRows_some (cs : Nat) (a : Node T C) (h : a.inner.prod ≠ 0) : readRows cs a.inner = some (max 1 (cs / a.inner.prod)) := by
  unfold readRows
  rw [if_neg h]

theorem node_ne_iff (f g : File T C) (ignore : List String) :
    (∀ p, p ∉ ignore → ((∃ a, f.node p = some a) ↔ ∃ b, g.node p = some b) ∧ ((∃ a, f.node p = some a) → ¬ ∃ a b, f.node p = some a ∧ g.node p = some b ∧ a ≠ b)) ↔
      ∀ p, p ∉ ignore → f.node p = g.node p := by
  refine forall_congr' fun p => imp_congr_right fun _ => ?_
  cases hf : f.node p with
  | none =>
    cases hg : g.node p <;> simp
  | some a =>
    cases hg : g.node p <;> simp

/-- C181: the comparison passes exactly if each node that is not ignored has the same content in both files or is in none of them, and the nodes named in the message
are the different ones. It is required that additional rows of the second file would be seen. -/
theorem C181_equal_partial (cs : Nat) (ignore : List String) (f g : File T C) (hf : ProperFile f) (hg : ProperFile g)
    (hl : ∀ p a b, p ∉ ignore → f.node p = some a → g.node p = some b → LengthSeen cs a b) :
    ∃ r, compareFiles none cs none ignore f g = some r ∧
      (r.passed = true ↔ ∀ p, p ∉ ignore → f.node p = g.node p) ∧
      ∀ p, p ∈ r.differ ↔ p ∉ ignore ∧ ∃ a b, f.node p = some a ∧ g.node p = some b ∧ a ≠ b := by
  obtain ⟨r, h1, h2, h3⟩ := compareFiles_spec none cs ignore f g (fun p => ∃ a b, f.node p = some a ∧ g.node p = some b ∧ a ≠ b) (fun p a b hp ha hb => by
    obtain ⟨pa, za⟩ := hf.1 _ (node_mem f p a ha)
    obtain ⟨pb, -⟩ := hg.1 _ (node_mem g p b hb)
    obtain ⟨r, g1, g2, g3⟩ := exact_node cs _ a b pa pb (readRows_some cs a za)
    refine ⟨r, g1, ?_⟩
    have hab : r = true ↔ a = b := ⟨g3 (hl p a b hp ha hb), g2⟩
    rw [← Bool.not_eq_true, hab]
    constructor
    · intro h; exact ⟨a, b, ha, hb, h⟩
    · rintro ⟨a', b', ha', hb', h⟩
      rw [ha] at ha'
      rw [hb] at hb'
      rwa [Option.some.inj ha', Option.some.inj hb'])
  refine ⟨r, h1, h2.trans (node_ne_iff f g ignore), fun p => (h3 p).trans ⟨?_, ?_⟩⟩
  · rintro ⟨x1, -, -, x2⟩; exact ⟨x1, x2⟩
  · rintro ⟨x1, a, b, ha, hb, x2⟩; exact ⟨x1, ⟨a, ha⟩, ⟨b, hb⟩, a, b, ha, hb, x2⟩

/-- C181: files with the same content pass, whatever the chunk size and the number of rows. -/
theorem C181_same_passes (cs : Nat) (ignore : List String) (f g : File T C) (hf : ProperFile f) (hg : ProperFile g)
    (h : ∀ p, p ∉ ignore → f.node p = g.node p) : ∃ r, compareFiles none cs none ignore f g = some r ∧ r.passed = true ∧ r.differ = [] := by
  obtain ⟨r, h1, h2, h3⟩ := compareFiles_spec none cs ignore f g (fun _ => False) (fun p a b hp ha hb => by
    obtain ⟨pa, za⟩ := hf.1 _ (node_mem f p a ha)
    obtain ⟨pb, -⟩ := hg.1 _ (node_mem g p b hb)
    obtain ⟨r, g1, g2, g3⟩ := exact_node cs _ a b pa pb (readRows_some cs a za)
    refine ⟨r, g1, ?_⟩
    have := h p hp
    rw [ha, hb] at this
    rw [g2 (Option.some.inj this)]
    simp)
  refine ⟨r, h1, h2.mpr fun p hp => ?_, List.eq_nil_iff_forall_not_mem.mpr fun p hp => ((h3 p).mp hp).2.2.2⟩
  rw [h p hp]
  exact ⟨Iff.rfl, fun _ => id⟩

/-- C181: a missing node is always noticed. -/
theorem C181_missing_node (cs : Nat) (ignore : List String) (f g : File T C) (r : Result) (h : compareFiles none cs none ignore f g = some r) (p : String) (hp : p ∉ ignore)
    (hm : (∃ a, f.node p = some a) ↔ g.node p = none) : r.passed = false ∧ (p ∈ r.onlyFirst ∨ p ∈ r.onlySecond) := by
  unfold compareFiles at h
  dsimp only at h
  rw [Option.map_eq_some_iff] at h
  obtain ⟨d, -, rfl⟩ := h
  have hor : p ∈ (paths f ignore).filter (fun p => decide (p ∉ paths g ignore)) ∨ p ∈ (paths g ignore).filter (fun p => decide (p ∉ paths f ignore)) := by
    simp only [List.mem_filter, decide_eq_true_eq, mem_paths]
    cases hg : g.node p with
    | none =>
      left
      exact ⟨⟨hp, hm.mpr hg⟩, by rintro ⟨-, b, hb⟩; cases hb⟩
    | some b =>
      right
      refine ⟨⟨hp, b, rfl⟩, ?_⟩
      rintro ⟨-, hf⟩
      rw [hm.mp hf] at hg
      cases hg
  refine ⟨?_, hor⟩
  rw [← Bool.not_eq_true]
  intro hpass
  simp only [Bool.and_eq_true, List.isEmpty_iff] at hpass
  rcases hor with h | h
  · rw [hpass.1.1] at h; cases h
  · rw [hpass.1.2] at h; cases h

/-- C181 is false in general: additional rows at the end of a node of the second file are not noticed if the number of rows of the first is a multiple of the number of rows read at once,
in particular if the first node is empty. -/
theorem C181_additional_rows (cs : Nat) (p : String) (a : Node T C) (ha : ProperNode a) (hz : a.inner.prod ≠ 0) (hd : max 1 (cs / a.inner.prod) ∣ a.rows.length) (more : List (List C))
    (hb : ProperNode { a with rows := a.rows ++ more }) :
    compareFiles none cs none [] [(p, a)] [(p, { a with rows := a.rows ++ more })] = some ⟨true, [], [], []⟩ := by
  have hnode : compareNode none cs a { a with rows := a.rows ++ more } = some true := by
    obtain ⟨n, hn⟩ : ∃ n, n = max 1 (cs / a.inner.prod) := ⟨_, rfl⟩
    rw [← hn] at hd
    obtain ⟨r, h1, h2⟩ := compareLoop_spec none cs n a { a with rows := a.rows ++ more } _ (hn ▸ readRows_some cs a hz)
      (fun s _ => exact_slice a { a with rows := a.rows ++ more } ha hb s (s + n)) (a.rows.length + 1) 0 (by omega)
    unfold compareNode
    rw [h1, h2.mpr ?_]
    intro j hj
    refine ⟨⟨rfl, rfl, rfl⟩, (forall₂_eq_iff _ _).mpr ?_⟩
    change (a.rows.drop (0 + j * n)).take _ = ((a.rows ++ more).drop (0 + j * n)).take _
    obtain ⟨q, hq⟩ := hd
    have hle : j * n + n ≤ a.rows.length := by
      have h3 : j < q := by
        by_contra hc
        have : q * n ≤ j * n := Nat.mul_le_mul_right n (by omega)
        rw [Nat.mul_comm n q] at hq
        omega
      calc j * n + n = (j + 1) * n := by ring
        _ ≤ q * n := Nat.mul_le_mul_right n h3
        _ = a.rows.length := by rw [hq, Nat.mul_comm]
    rw [List.drop_append_of_le_length (by omega), List.take_append_of_le_length]
    rw [List.length_drop]
    omega
  simp [compareFiles, paths, compareNodes, File.node, hnode]

/-- C181 with a list of nodes: the comparison passes exactly if each of the nodes exists in both files, is not to be ignored, and has the same content. The names are used with a slash in front. -/
theorem C181_node_names_partial (cs : Nat) (names ignore : List String) (f g : File T C) (hf : ProperFile f) (hg : ProperFile g)
    (hl : ∀ p a b, p ∉ ignore → f.node p = some a → g.node p = some b → LengthSeen cs a b) :
    ∃ r, compareFiles none cs (some names) ignore f g = some r ∧
      (r.passed = true ↔ ∀ s ∈ names, withSlash s ∉ ignore ∧ ∃ a, f.node (withSlash s) = some a ∧ g.node (withSlash s) = some a) := by
  obtain ⟨r, h1, h2⟩ := compareFiles_names_spec none cs names ignore f g (fun p => f.node p ≠ g.node p) (fun p a b hp ha hb => by
    obtain ⟨pa, za⟩ := hf.1 _ (node_mem f p a ha)
    obtain ⟨pb, -⟩ := hg.1 _ (node_mem g p b hb)
    obtain ⟨r, g1, g2, g3⟩ := exact_node cs _ a b pa pb (readRows_some cs a za)
    refine ⟨r, g1, ?_⟩
    have hab : r = true ↔ a = b := ⟨g3 (hl p a b hp ha hb), g2⟩
    rw [← Bool.not_eq_true, hab, ha, hb, ne_eq, Option.some.injEq])
  refine ⟨r, h1, h2.trans (forall_congr' fun s => imp_congr_right fun _ => and_congr_right fun _ => ?_)⟩
  constructor
  · rintro ⟨⟨a, ha⟩, -, h⟩
    exact ⟨a, ha, by rw [← not_not.mp h]; exact ha⟩
  · rintro ⟨a, ha, hb⟩
    exact ⟨⟨a, ha⟩, ⟨a, hb⟩, by rw [ha, hb]; simp⟩

/-- Meaning of the names: a leading slash is added if there is none. -/
theorem C181_name (s : String) : withSlash ("/" ++ s) = "/" ++ s ∧ (s ≠ "" → s.toList.head? ≠ some '/' → withSlash s = "/" ++ s) := by
  refine ⟨?_, ?_⟩
  · unfold withSlash
    rw [if_neg]
    rintro ⟨-, h⟩
    simp at h
  · intro h1 h2
    have h3 : s.toList.take 1 ≠ ['/'] := by
      intro h
      apply h2
      cases hs : s.toList with
      | nil => rw [hs] at h; cases h
      | cons c l =>
        rw [hs] at h
        simpa using h
    unfold withSlash
    rw [if_pos ⟨h1, h3⟩]

/-- The names of nodes to be ignored are not extended: without the slash they have no effect. -/
theorem C181_ignore_without_slash (close : Option (C → C → Bool)) (cs : Nat) (names : Option (List String)) (ignore : List String) (f g : File T C)
    (hf : ∀ x ∈ f, x.1.toList.head? = some '/') (hg : ∀ x ∈ g, x.1.toList.head? = some '/') (hi : ∀ s ∈ ignore, s.toList.head? ≠ some '/') :
    compareFiles close cs names ignore f g = compareFiles close cs names [] f g := by
  have hp : ∀ k : File T C, (∀ x ∈ k, x.1.toList.head? = some '/') → paths k ignore = paths k [] := by
    intro k hk
    unfold paths
    apply List.filter_congr
    intro q hq
    obtain ⟨x, hx, rfl⟩ := List.mem_map.mp hq
    have : x.1 ∉ ignore := fun h => hi _ h (hk x hx)
    simp [this]
  unfold compareFiles
  rw [hp f hf, hp g hg]

/-- C182: comparison with a tolerance, for files without strings: passes exactly if all nodes agree, value by value. -/
theorem C182_close_partial (close : C → C → Bool) (cs : Nat) (ignore : List String) (f g : File T C) (hf : ProperFile f) (hg : ProperFile g)
    (hs : ∀ x ∈ f, NoStrings x.2) (hl : ∀ p a b, p ∉ ignore → f.node p = some a → g.node p = some b → LengthSeen cs a b) :
    ∃ r, compareFiles (some close) cs none ignore f g = some r ∧
      (r.passed = true ↔ ∀ p, p ∉ ignore → Option.Rel (NodesRelated fun x y => close x y = true) (f.node p) (g.node p)) := by
  obtain ⟨r, h1, h2, -⟩ := compareFiles_spec (some close) cs ignore f g
    (fun p => ∃ a b, f.node p = some a ∧ g.node p = some b ∧ ¬ NodesRelated (fun x y => close x y = true) a b) (fun p a b hp ha hb => by
    obtain ⟨pa, za⟩ := hf.1 _ (node_mem f p a ha)
    obtain ⟨pb, -⟩ := hg.1 _ (node_mem g p b hb)
    obtain ⟨r, g1, g2, g3⟩ := close_node close cs _ a b pa pb (hs _ (node_mem f p a ha)) (readRows_some cs a za)
    refine ⟨r, g1, ?_⟩
    have hab : r = true ↔ NodesRelated (fun x y => close x y = true) a b := ⟨g3 (hl p a b hp ha hb), g2⟩
    rw [← Bool.not_eq_true, hab]
    constructor
    · intro h; exact ⟨a, b, ha, hb, h⟩
    · rintro ⟨a', b', ha', hb', h⟩
      rw [ha] at ha'
      rw [hb] at hb'
      rwa [Option.some.inj ha', Option.some.inj hb'])
  refine ⟨r, h1, h2.trans (forall_congr' fun p => imp_congr_right fun _ => ?_)⟩
  cases hf : f.node p with
  | none =>
    cases hg : g.node p with
    | none => simp [Option.Rel.none]
    | some b =>
      constructor
      · rintro ⟨h, -⟩; simp at h
      · intro h; cases h
  | some a =>
    cases hg : g.node p with
    | none =>
      constructor
      · rintro ⟨h, -⟩; simp at h
      · intro h; cases h
    | some b =>
      constructor
      · rintro ⟨-, h⟩
        refine Option.Rel.some (by_contra fun hc => h ⟨a, rfl⟩ ⟨a, b, rfl, rfl, hc⟩)
      · intro h
        refine ⟨by simp, fun _ => ?_⟩
        rintro ⟨a', b', ha, hb, hc⟩
        rw [← Option.some.inj ha, ← Option.some.inj hb] at hc
        cases h with
        | some h => exact hc h

/-- Comparison of numbers by numpy (`isclose` with `equal_nan=True`), L113, L126. Infinite values are not modelled. -/
def numbersClose {K : Type} [Field K] [LinearOrder K] (rtol atol : K) (x y : List (Option K)) : Bool :=
  x.length = y.length && (x.zip y).all fun p => match p.1, p.2 with
    | none, none => true
    | some a, some b => decide (|a - b| ≤ atol + rtol * |b|)
    | _, _ => false

theorem numbersClose_iff {K : Type} [Field K] [LinearOrder K] (rtol atol : K) (x y : List (Option K)) :
    numbersClose rtol atol x y = true ↔ List.Forall₂ (Agree rtol atol) x y := by
  induction x generalizing y with
  | nil => cases y <;> simp [numbersClose]
  | cons u x ih =>
    cases y with
    | nil => simp [numbersClose]
    | cons v y =>
      rw [List.forall₂_cons, ← ih]
      unfold numbersClose Agree
      cases u <;> cases v <;> simp [and_left_comm]

/-- C182 is false with strings: the columns behind a column of strings are not compared, for all numbers in these columns and any tolerance. -/
theorem C182_strings (close : C → C → Bool) (cs : Nat) (hcs : 0 < cs) (p : String) (names : List String) (t0 : T) (others : List (Dtype T)) (s : C) (u v : List C)
    (hn : names.length = others.length + 1) :
    compareFiles (some close) cs none [] [(p, ⟨some names, [], ⟨t0, true⟩ :: others, [s :: u]⟩)] [(p, ⟨some names, [], ⟨t0, true⟩ :: others, [s :: v]⟩)] = some ⟨true, [], [], []⟩ := by
  have hr : List.range names.length = 0 :: (List.range others.length).map (· + 1) := by rw [hn, List.range_succ_eq_map]
  have hcs' : max 1 cs = cs := by omega
  have ht : ∀ x : List C, ([x].take cs) = [x] := fun x => List.take_of_length_le (by simp; omega)
  have hnode : compareNode (some close) cs (⟨some names, [], ⟨t0, true⟩ :: others, [s :: u]⟩ : Node T C) ⟨some names, [], ⟨t0, true⟩ :: others, [s :: v]⟩ = some true := by
    simp [compareNode, compareLoop, readRows, compareSlices, nanClose, Node.read, Node.shape, Node.column, Node.dtype, hcs', ht, hr, closeColumns, isStringType, show cs ≠ 0 by omega]
  simp [compareFiles, paths, compareNodes, File.node, hnode]

/-- C182 for numbers: passes exactly if all values agree within the tolerances. -/
theorem C182_numbers_partial {K : Type} [Field K] [LinearOrder K] (rtol atol : K) (cs : Nat) (ignore : List String) (f g : File T (List (Option K)))
    (hf : ProperFile f) (hg : ProperFile g) (hs : ∀ x ∈ f, NoStrings x.2) (hl : ∀ p a b, p ∉ ignore → f.node p = some a → g.node p = some b → LengthSeen cs a b) :
    ∃ r, compareFiles (some (numbersClose rtol atol)) cs none ignore f g = some r ∧
      (r.passed = true ↔ ∀ p, p ∉ ignore → Option.Rel (NodesRelated (List.Forall₂ (Agree rtol atol))) (f.node p) (g.node p)) := by
  obtain ⟨r, h1, h2⟩ := C182_close_partial (numbersClose rtol atol) cs ignore f g hf hg hs hl
  have e : (fun x y => numbersClose rtol atol x y = true) = List.Forall₂ (Agree rtol atol) := by
    funext x y
    exact propext (numbersClose_iff rtol atol x y)
  rw [e] at h2
  exact ⟨r, h1, h2⟩

/-- File with one array of numbers. -/
def numbers (l : List ℚ) : File String (List (Option ℚ)) := [("/Data", ⟨none, [], [⟨"float64", false⟩], l.map fun x => [[some x]]⟩)]

/-- The comparison with a tolerance depends on the order of the files: 10 and 11 with a relative tolerance of 0.095. -/
theorem C182_order :
    (compareFiles (some (numbersClose (95 / 1000) 0)) 5 none [] (numbers [10]) (numbers [11])).map Result.passed = some true ∧
    (compareFiles (some (numbersClose (95 / 1000) 0)) 5 none [] (numbers [11]) (numbers [10])).map Result.passed = some false := by
  decide +kernel

/-- Table with two columns. -/
def exNode (l : List (ℚ × ℚ)) : Node String ℚ := ⟨some ["a", "b"], [], [⟨"float64", false⟩, ⟨"float64", false⟩], l.map fun p => [p.1, p.2]⟩

theorem exNode_proper (l : List (ℚ × ℚ)) : ProperNode (exNode l) := by
  refine ⟨rfl, rfl, ?_⟩
  intro r hr
  obtain ⟨p, -, rfl⟩ := List.mem_map.mp hr
  rfl

/-- The hypotheses of C181 and C182 hold for files with two nodes of three rows and chunks of two rows, which differ in the last value. -/
example : ProperFile [("/A", exNode [(1, 2), (3, 4), (5, 6)]), ("/B", exNode [(1, 1)])] ∧ ProperFile [("/B", exNode [(1, 1)]), ("/A", exNode [(1, 2), (3, 4), (5, 7)])] := by
  refine ⟨⟨?_, by decide⟩, ?_, by decide⟩ <;>
  · intro x hx
    simp only [List.mem_cons, List.not_mem_nil, or_false] at hx
    rcases hx with rfl | rfl <;> exact ⟨exNode_proper _, by decide⟩

example : LengthSeen 2 (exNode [(1, 2), (3, 4), (5, 6)]) (exNode [(1, 2), (3, 4), (5, 7)]) := Or.inl (by decide)

example : compareFiles none 2 none [] [("/A", exNode [(1, 2), (3, 4), (5, 6)]), ("/B", exNode [(1, 1)])] [("/B", exNode [(1, 1)]), ("/A", exNode [(1, 2), (3, 4), (5, 7)])] =
    some ⟨false, [], [], ["/A"]⟩ := by decide +kernel

/-- Additional rows: two rows in the first file, three in the second, chunks of two rows. -/
example : compareFiles none 2 none [] [("/A", exNode [(1, 2), (3, 4)])] [("/A", exNode [(1, 2), (3, 4), (5, 6)])] = some ⟨true, [], [], []⟩ := by decide +kernel

end BTA.CompareFiles.Props
