import Verif.Spec.ArrayDiff
import Mathlib.Tactic.Linarith
import Mathlib.Tactic.NormNum
/-
C231: the report of differences.
-/
namespace BTA.ArrayDiff
open BTA.ArrayDiff.Spec

/-- The sum of numbers without opposite infinities is a number or infinite. -/
theorem foldl_sum (l : List Val) (ht : ∀ s, Val.text s ∉ l) : ∀ acc : Val,
    ((∃ x, acc = .num x) ∧ ¬ (Val.pinf ∈ l ∧ Val.ninf ∈ l) ∨ acc = .pinf ∧ Val.ninf ∉ l ∨ acc = .ninf ∧ Val.pinf ∉ l) →
    l.foldl (fun acc v => if v = .nan then acc else add acc v) acc ≠ .nan := by
  induction l with
  | nil =>
    rintro acc (⟨⟨x, rfl⟩, -⟩ | ⟨rfl, -⟩ | ⟨rfl, -⟩) <;> simp
  | cons v l ih =>
    intro acc h
    rw [List.foldl_cons]
    have ht' : ∀ s, Val.text s ∉ l := fun s hs => ht s (List.mem_cons_of_mem _ hs)
    apply ih ht'
    cases v with
    | text s => exact (ht s List.mem_cons_self).elim
    | nan =>
      rw [if_pos rfl]
      simpa using h
    | num y =>
      rw [if_neg (by simp)]
      rcases h with ⟨⟨x, rfl⟩, h⟩ | ⟨rfl, h⟩ | ⟨rfl, h⟩
      · exact .inl ⟨⟨_, rfl⟩, by simpa using h⟩
      · exact .inr (.inl ⟨rfl, by simpa using h⟩)
      · exact .inr (.inr ⟨rfl, by simpa using h⟩)
    | pinf =>
      rw [if_neg (by simp)]
      rcases h with ⟨⟨x, rfl⟩, h⟩ | ⟨rfl, h⟩ | ⟨rfl, h⟩
      · exact .inr (.inl ⟨rfl, by simpa using h⟩)
      · exact .inr (.inl ⟨rfl, by simpa using h⟩)
      · simp at h
    | ninf =>
      rw [if_neg (by simp)]
      rcases h with ⟨⟨x, rfl⟩, h⟩ | ⟨rfl, h⟩ | ⟨rfl, h⟩
      · exact .inr (.inr ⟨rfl, by simpa using h⟩)
      · simp at h
      · exact .inr (.inr ⟨rfl, by simpa using h⟩)

theorem nansum_nan_absorbs (l : List Val) : l.foldl (fun acc v => if v = .nan then acc else add acc v) .nan = .nan := by
  induction l with
  | nil => rfl
  | cons v l ih =>
    rw [List.foldl_cons]
    have : (if v = .nan then Val.nan else add .nan v) = .nan := by
      split
      · rfl
      · cases v <;> rfl
    rw [this, ih]

/-- With opposite infinities the sum is NaN. -/
theorem foldl_nan (l : List Val) (ht : ∀ s, Val.text s ∉ l) : ∀ acc : Val,
    ((∃ x, acc = .num x) ∧ Val.pinf ∈ l ∧ Val.ninf ∈ l ∨ acc = .pinf ∧ Val.ninf ∈ l ∨ acc = .ninf ∧ Val.pinf ∈ l) →
    l.foldl (fun acc v => if v = .nan then acc else add acc v) acc = .nan := by
  induction l with
  | nil => rintro acc (⟨-, h, -⟩ | ⟨-, h⟩ | ⟨-, h⟩) <;> simp at h
  | cons v l ih =>
    intro acc h
    rw [List.foldl_cons]
    have ht' : ∀ s, Val.text s ∉ l := fun s hs => ht s (List.mem_cons_of_mem _ hs)
    cases v with
    | text s => exact (ht s List.mem_cons_self).elim
    | nan =>
      apply ih ht'
      rw [if_pos rfl]
      simpa using h
    | num y =>
      apply ih ht'
      rw [if_neg (by simp)]
      rcases h with ⟨⟨x, rfl⟩, h⟩ | ⟨rfl, h⟩ | ⟨rfl, h⟩
      · exact .inl ⟨⟨_, rfl⟩, by simpa using h⟩
      · exact .inr (.inl ⟨rfl, by simpa using h⟩)
      · exact .inr (.inr ⟨rfl, by simpa using h⟩)
    | pinf =>
      rw [if_neg (by simp)]
      rcases h with ⟨⟨x, rfl⟩, h⟩ | ⟨rfl, h⟩ | ⟨rfl, h⟩
      · exact ih ht' _ (.inr (.inl ⟨rfl, by simpa using h⟩))
      · exact ih ht' _ (.inr (.inl ⟨rfl, by simpa using h⟩))
      · exact nansum_nan_absorbs l
    | ninf =>
      rw [if_neg (by simp)]
      rcases h with ⟨⟨x, rfl⟩, h⟩ | ⟨rfl, h⟩ | ⟨rfl, h⟩
      · exact ih ht' _ (.inr (.inr ⟨rfl, by simpa using h⟩))
      · exact nansum_nan_absorbs l
      · exact ih ht' _ (.inr (.inr ⟨rfl, by simpa using h⟩))

variable {T : Type} [DecidableEq T]

theorem sumDiffers_self {isText : T → Bool} (a : Arr T) (h : ProperArr isText a) : sumDiffers a a = false := by
  unfold sumDiffers
  cases ht : a.isText with
  | true => rfl
  | false =>
    simp only [Bool.or_false, Bool.false_eq_true, if_false]
    unfold differs
    have := foldl_sum a.vals (h.text ht) (.num 0) (.inl ⟨⟨0, rfl⟩, h.infinite ht⟩)
    rw [decide_eq_false]
    rintro (h1 | h1 | h1)
    · exact this h1
    · exact this h1
    · exact h1 rfl

theorem reshaped_self (a : Arr T) : reshaped a a = a := by
  unfold reshaped
  rw [if_neg]
  rintro ⟨h, -⟩
  exact h rfl

/-- C231 for two arrays (exact comparison). -/
theorem compare_exact {isText : T → Bool} (a b : Arr T) (ha : ProperArr isText a) (hb : ProperArr isText b) : ∃ d, compareArrays none a b = some d ∧
    (d.type = true ↔ a.dtype ≠ b.dtype) ∧ (d.shape = true ↔ a.shape ≠ b.shape) ∧ ((d.type = true ∨ d.shape = true ∨ d.sum = true ∨ d.values = true) ↔ a ≠ b) := by
  refine ⟨_, rfl, by simp, by simp, ?_⟩
  dsimp only
  constructor
  · rintro h rfl
    rw [reshaped_self, sumDiffers_self a ha] at h
    simp at h
  · intro hne
    by_cases h1 : a.dtype = b.dtype
    · by_cases h2 : a.shape = b.shape
      · right; right; right
        rw [decide_eq_true_eq]
        right
        intro h3
        apply hne
        have h4 : a.isText = b.isText := by rw [ha.kind, hb.kind, h1]
        have e : reshaped a b = a := by
          unfold reshaped
          rw [if_neg]
          rintro ⟨h, -⟩
          exact h h2
        rw [e] at h3
        cases a
        cases b
        simp only at h1 h2 h3 h4
        rw [h1, h2, h3, h4]
      · right; left
        simpa using h2
    · left
      simpa using h1

omit [DecidableEq T] in
/-- Columns are found by their names. -/
theorem col_iff {isText : T → Bool} (a : Table T) (h : ProperTable isText a) (c : String) (x : Arr T) : a.col c = some x ↔ IsColumn a c x := by
  unfold Table.col IsColumn
  cases hn : a.names with
  | none => simp
  | some l =>
    obtain ⟨hd, hlen⟩ := h.names l hn
    simp only [Option.getD_some, Option.some.injEq, exists_eq_left']
    generalize a.cols = cols at hlen
    clear hn h
    induction l generalizing cols with
    | nil => simp
    | cons n l ih =>
      cases cols with
      | nil => simp at hlen
      | cons y cols =>
        rw [List.zip_cons_cons, List.find?_cons]
        by_cases hc : n = c
        · subst hc
          rw [decide_eq_true rfl]
          constructor
          · intro hx
            exact ⟨0, rfl, by simpa using hx⟩
          · rintro ⟨i, h1, h2⟩
            cases i with
            | zero => simpa using h2
            | succ i =>
              rw [List.getElem?_cons_succ] at h1
              exact ((List.nodup_cons.mp hd).1 (List.mem_of_getElem? h1)).elim
        · have hf : decide (n = c) = false := decide_eq_false hc
          dsimp only
          rw [hf]
          dsimp only
          rw [ih (List.nodup_cons.mp hd).2 cols (by simpa using hlen)]
          constructor
          · rintro ⟨i, h1, h2⟩
            exact ⟨i + 1, h1, h2⟩
          · rintro ⟨i, h1, h2⟩
            cases i with
            | zero =>
              rw [List.getElem?_cons_zero] at h1
              exact (hc (Option.some.inj h1)).elim
            | succ i => exact ⟨i, h1, h2⟩

omit [DecidableEq T] in
theorem isColumn_mem {a : Table T} {c : String} {x : Arr T} (h : IsColumn a c x) : x ∈ a.cols := by
  obtain ⟨l, -, i, -, h2⟩ := h
  exact List.mem_of_getElem? h2

omit [DecidableEq T] in
theorem isColumn_exists {isText : T → Bool} {a : Table T} (h : ProperTable isText a) {l : List String} (hn : a.names = some l) (c : String) : (∃ x, IsColumn a c x) ↔ c ∈ l := by
  constructor
  · rintro ⟨x, l', h1, i, h2, -⟩
    rw [hn] at h1
    rw [← Option.some.inj h1] at h2
    exact List.mem_of_getElem? h2
  · intro hc
    obtain ⟨i, hi, e⟩ := List.mem_iff_getElem.mp hc
    have hl := (h.names l hn).2
    exact ⟨a.cols[i]'(by omega), l, hn, i, by rw [List.getElem?_eq_getElem hi, e], List.getElem?_eq_getElem _⟩

theorem compareColumns_spec {isText : T → Bool} (a b : Table T) (ha : ProperTable isText a) (hb : ProperTable isText b) : ∀ cs : List String,
    (∀ c ∈ cs, (∃ x, IsColumn a c x) ∧ ∃ y, IsColumn b c y) →
    ∃ l, compareColumns none a b cs = some l ∧ l.map Prod.fst = cs ∧ ∀ p ∈ l, ∀ x y, IsColumn a p.1 x → IsColumn b p.1 y → compareArrays none x y = some p.2
  | [], _ => ⟨[], rfl, rfl, by simp⟩
  | c :: cs, h => by
    obtain ⟨l, h1, h2, h3⟩ := compareColumns_spec a b ha hb cs (fun c hc => h c (List.mem_cons_of_mem _ hc))
    obtain ⟨⟨x, hx⟩, y, hy⟩ := h c List.mem_cons_self
    obtain ⟨d, hd, -⟩ := compare_exact x y (ha.cols x (isColumn_mem hx)) (hb.cols y (isColumn_mem hy))
    refine ⟨(c, d) :: l, ?_, by simp [h2], ?_⟩
    · rw [compareColumns, (col_iff a ha c x).mpr hx, (col_iff b hb c y).mpr hy]
      dsimp only
      rw [hd]
      dsimp only
      rw [h1]
      rfl
    · intro p hp x' y' hx' hy'
      rcases List.mem_cons.mp hp with rfl | hp
      · have e1 := (col_iff a ha c x').mpr hx'
        have e2 := (col_iff b hb c y').mpr hy'
        rw [(col_iff a ha c x).mpr hx] at e1
        rw [(col_iff b hb c y).mpr hy] at e2
        rw [← Option.some.inj e1, ← Option.some.inj e2]
        exact hd
      · exact h3 p hp x' y' hx' hy'

/-- C231 (exact comparison, no column with infinity of both signs): there is a report; it says that there is a difference exactly if the arrays differ; a table and an array are a mismatch; for
tables the additional columns of both are listed, a different order is reported exactly for the same columns in another order, and each common column is reported once as different exactly if it
differs, with the type and the shape. -/
theorem C231_exact_partial (isText : T → Bool) (a b : Table T) (ha : ProperTable isText a) (hb : ProperTable isText b) :
    ∃ r, arrayDifferences none a b = some r ∧ (Says r ↔ a ≠ b) ∧
      (r = .mismatch ↔ a.names.isSome ≠ b.names.isSome) ∧
      ∀ na nb, a.names = some na → b.names = some nb → ∃ first second order cols, r = .table first second order cols ∧
        (∀ c, c ∈ first ↔ c ∈ na ∧ c ∉ nb) ∧ (∀ c, c ∈ second ↔ c ∈ nb ∧ c ∉ na) ∧ (order = true ↔ (∀ c, c ∈ na ↔ c ∈ nb) ∧ na ≠ nb) ∧ ColumnsOf a b cols := by
  unfold arrayDifferences
  cases hna : a.names with
  | none =>
    cases hnb : b.names with
    | none =>
      have la := ha.plain hna
      have lb := hb.plain hnb
      obtain ⟨x, hx⟩ := List.length_eq_one_iff.mp la
      obtain ⟨y, hy⟩ := List.length_eq_one_iff.mp lb
      rw [hx, hy]
      obtain ⟨d, hd, -, -, h3⟩ := compare_exact x y (ha.cols x (by rw [hx]; simp)) (hb.cols y (by rw [hy]; simp))
      refine ⟨.array d, by dsimp only; rw [hd]; rfl, ?_, by simp, by simp⟩
      show (d.type = true ∨ d.shape = true ∨ d.sum = true ∨ d.values = true) ↔ a ≠ b
      rw [h3]
      constructor
      · rintro h rfl
        apply h
        rw [hx] at hy
        simpa using hy
      · rintro h rfl
        apply h
        cases a
        cases b
        simp only at hna hnb hx hy
        rw [hna, hnb, hx, hy]
    | some nb =>
      refine ⟨.mismatch, rfl, ?_, by simp, by simp⟩
      show True ↔ a ≠ b
      rw [true_iff]
      rintro rfl
      rw [hna] at hnb
      cases hnb
  | some na =>
    cases hnb : b.names with
    | none =>
      refine ⟨.mismatch, rfl, ?_, by simp, by simp⟩
      show True ↔ a ≠ b
      rw [true_iff]
      rintro rfl
      rw [hna] at hnb
      cases hnb
    | some nb =>
      obtain ⟨da, la⟩ := ha.names na hna
      obtain ⟨db, lb⟩ := hb.names nb hnb
      obtain ⟨l, h1, h2, h3⟩ := compareColumns_spec a b ha hb (na.filter fun c => decide (c ∈ nb)) (by
        intro c hc
        rw [List.mem_filter, decide_eq_true_eq] at hc
        exact ⟨(isColumn_exists ha hna c).mpr hc.1, (isColumn_exists hb hnb c).mpr hc.2⟩)
      have hcols : ColumnsOf a b l := by
        refine ⟨by rw [h2]; exact da.filter _, ?_, ?_⟩
        · intro c
          rw [h2, List.mem_filter, decide_eq_true_eq, isColumn_exists ha hna c, isColumn_exists hb hnb c]
        · intro c d x y hm hx hy
          obtain ⟨d', hd', e⟩ := compare_exact x y (ha.cols x (isColumn_mem hx)) (hb.cols y (isColumn_mem hy))
          have := h3 _ hm x y hx hy
          rw [hd'] at this
          have e' : d' = d := Option.some.inj this
          rw [← e']
          exact e
      have hfirst : ∀ c, c ∈ (na.filter fun c => decide (c ∉ nb)) ↔ c ∈ na ∧ c ∉ nb := by
        intro c
        rw [List.mem_filter, decide_eq_true_eq]
      have hsecond : ∀ c, c ∈ (nb.filter fun c => decide (c ∉ na)) ↔ c ∈ nb ∧ c ∉ na := by
        intro c
        rw [List.mem_filter, decide_eq_true_eq]
      have hsame : ((na.filter fun c => decide (c ∉ nb)) = [] ∧ (nb.filter fun c => decide (c ∉ na)) = []) ↔ ∀ c, c ∈ na ↔ c ∈ nb := by
        rw [List.eq_nil_iff_forall_not_mem, List.eq_nil_iff_forall_not_mem]
        constructor
        · rintro ⟨g1, g2⟩ c
          have g1 := g1 c
          have g2 := g2 c
          rw [hfirst] at g1
          rw [hsecond] at g2
          tauto
        · intro h
          refine ⟨fun c hc => ?_, fun c hc => ?_⟩
          · rw [hfirst, h c] at hc
            exact hc.2 hc.1
          · rw [hsecond, h c] at hc
            exact hc.2 hc.1
      have horder : ((na.filter fun c => decide (c ∉ nb)).isEmpty && (nb.filter fun c => decide (c ∉ na)).isEmpty && decide (na ≠ nb)) = true ↔
          (∀ c, c ∈ na ↔ c ∈ nb) ∧ na ≠ nb := by
        rw [Bool.and_eq_true, Bool.and_eq_true, List.isEmpty_iff, List.isEmpty_iff, decide_eq_true_eq, hsame]
      refine ⟨_, by dsimp only; rw [h1]; rfl, ?_, by simp, ?_⟩
      · show (_ ≠ [] ∨ _ ≠ [] ∨ _ = true ∨ _) ↔ _
        constructor
        · rintro h rfl
          rw [hna] at hnb
          have hnn := Option.some.inj hnb
          subst hnn
          rcases h with h | h | h | ⟨⟨c, d⟩, hc, h⟩
          · exact h (hsame.mpr fun _ => Iff.rfl).1
          · exact h (hsame.mpr fun _ => Iff.rfl).1
          · exact (horder.mp h).2 rfl
          · obtain ⟨⟨x, hx⟩, -⟩ := (hcols.2.1 c).mp (List.mem_map_of_mem (f := Prod.fst) hc)
            exact (hcols.2.2 c d x x hc hx hx).2.2.mp h rfl
        · intro hne
          by_contra hcon
          push Not at hcon
          obtain ⟨e1, e2, e3, e4⟩ := hcon
          have hs := hsame.mp ⟨e1, e2⟩
          have hnn : na = nb := by
            by_contra hh
            exact e3 (horder.mpr ⟨hs, hh⟩)
          subst hnn
          apply hne
          have hcc : a.cols = b.cols := by
            apply List.ext_getElem (by omega)
            intro i i1 i2
            have hi : i < na.length := by omega
            have hx : IsColumn a na[i] a.cols[i] := ⟨na, hna, i, List.getElem?_eq_getElem hi, List.getElem?_eq_getElem i1⟩
            have hy : IsColumn b na[i] b.cols[i] := ⟨na, hnb, i, List.getElem?_eq_getElem hi, List.getElem?_eq_getElem i2⟩
            obtain ⟨⟨c, d⟩, hm, hc⟩ := List.mem_map.mp ((hcols.2.1 na[i]).mpr ⟨⟨_, hx⟩, _, hy⟩)
            simp only at hc
            subst hc
            by_contra hxy
            have := (hcols.2.2 _ d _ _ hm hx hy).2.2.mpr hxy
            obtain ⟨f1, f2, f3, f4⟩ := e4 _ hm
            rcases this with g | g | g | g
            · exact f1 g
            · exact f2 g
            · exact f3 g
            · exact f4 g
          cases a
          cases b
          simp only at hna hnb hcc
          rw [hna, hnb, hcc]
      · intro na' nb' e1 e2
        cases e1
        cases e2
        exact ⟨_, _, _, _, rfl, hfirst, hsecond, horder, hcols⟩

/-- C231: for two arrays with different shapes and the same number of values the shape is reported, and the values only if they differ; with different
numbers of values both are reported. -/
theorem C231_shape (a b : Arr T) (hs : a.shape ≠ b.shape) : ∃ d, arrayDifferences none ⟨none, [a]⟩ ⟨none, [b]⟩ = some (.array d) ∧ d.shape = true ∧
    (d.type = true ↔ a.dtype ≠ b.dtype) ∧ (a.shape.prod = b.shape.prod → (d.values = true ↔ a.vals ≠ b.vals)) ∧ (a.shape.prod ≠ b.shape.prod → d.values = true) := by
  unfold arrayDifferences
  dsimp only
  unfold compareArrays valuesDiffer
  refine ⟨_, rfl, by simpa using hs, by simp, fun h => ?_, fun h => ?_⟩
  · have : reshaped a b = { a with shape := b.shape } := by unfold reshaped; rw [if_pos ⟨hs, h⟩]
    rw [this]
    simp
  · have : reshaped a b = a := by unfold reshaped; rw [if_neg fun k => h k.2]
    rw [this]
    simp [hs]

example : (⟨(), false, [2, 3], []⟩ : Arr Unit).shape ≠ (⟨(), false, [6], []⟩ : Arr Unit).shape ∧ [2, 3].prod = [6].prod := by decide

/-- C231, negation: an array with infinity of both signs is reported to differ from itself, in its sum. -/
theorem C231_infinite_fails (a : Arr T) (ht : a.isText = false) (hv : ∀ s, Val.text s ∉ a.vals) (h1 : Val.pinf ∈ a.vals) (h2 : Val.ninf ∈ a.vals) :
    arrayDifferences none ⟨none, [a]⟩ ⟨none, [a]⟩ = some (.array ⟨false, false, true, false⟩) := by
  unfold arrayDifferences
  dsimp only
  unfold compareArrays valuesDiffer
  rw [reshaped_self]
  have : sumDiffers a a = true := by
    unfold sumDiffers
    rw [ht]
    simp only [Bool.or_false, Bool.false_eq_true, if_false]
    unfold differs
    rw [decide_eq_true_eq]
    exact .inl (foldl_nan a.vals hv (.num 0) (.inl ⟨⟨0, rfl⟩, h1, h2⟩))
  rw [this]
  simp

theorem nansum_num (xs : List ℚ) : nansum (xs.map Val.num) = .num xs.sum := by
  have : ∀ (l : List ℚ) (x : ℚ), (l.map Val.num).foldl (fun acc v => if v = .nan then acc else add acc v) (.num x) = .num (x + l.sum) := by
    intro l
    induction l with
    | nil => intro x; simp
    | cons y l ih =>
      intro x
      rw [List.map_cons, List.foldl_cons, if_neg (by simp)]
      show (l.map Val.num).foldl (fun acc v => if v = .nan then acc else add acc v) (Val.num (x + y)) = _
      rw [ih, List.sum_cons, add_assoc]
  have h := this xs 0
  rw [zero_add] at h
  exact h

/-- C231 with a tolerance (arrays of finite numbers with the same shape): no difference is reported exactly if the types agree, all values agree within the tolerance and the sums are exactly the
same. -/
theorem C231_close_partial (t : Tol) (a b : Arr T) (ha : a.isText = false) (hb : b.isText = false) (hl : a.shape = b.shape) (xs ys : List ℚ) (hx : a.vals = xs.map Val.num)
    (hy : b.vals = ys.map Val.num) :
    ∃ d, arrayDifferences (some t) ⟨none, [a]⟩ ⟨none, [b]⟩ = some (.array d) ∧
      (¬ Says (.array d) ↔ a.dtype = b.dtype ∧ (∀ p ∈ xs.zip ys, |p.1 - p.2| ≤ t.atol + t.rtol * |p.2|) ∧ xs.sum = ys.sum) := by
  have e : reshaped a b = a := by
    unfold reshaped
    rw [if_neg]
    rintro ⟨h, -⟩
    exact h hl
  have hclose : ((a.vals.zip b.vals).all fun p => close t p.1 p.2) = true ↔ ∀ p ∈ xs.zip ys, |p.1 - p.2| ≤ t.atol + t.rtol * |p.2| := by
    rw [hx, hy, List.zip_map, List.all_map, List.all_eq_true]
    apply forall₂_congr
    intro p hp
    exact decide_eq_true_iff
  have hsum : sumDiffers a b = false ↔ xs.sum = ys.sum := by
    unfold sumDiffers
    rw [ha, hb, hx, hy, nansum_num, nansum_num]
    simp [differs]
  refine ⟨⟨decide (a.dtype ≠ b.dtype), decide (a.shape ≠ b.shape), sumDiffers a b, !((a.vals.zip b.vals).all fun p => close t p.1 p.2)⟩, ?_, ?_⟩
  · unfold arrayDifferences
    dsimp only
    unfold compareArrays valuesDiffer
    rw [e]
    dsimp only
    rw [if_neg (by simpa using hl), ha, hb]
    rfl
  · unfold Says
    rw [← hclose, ← hsum]
    simp only [decide_eq_true_eq, Bool.not_eq_true', not_or, not_not, Bool.not_eq_true, Bool.not_eq_false]
    constructor
    · rintro ⟨h1, -, h3, h4⟩
      exact ⟨h1, h4, h3⟩
    · rintro ⟨h1, h4, h3⟩
      exact ⟨h1, hl, h3, h4⟩

/-- C231, negation: with a tolerance, two arrays with one number that agree within the tolerance but not exactly are reported as different. -/
theorem C231_close_fails (t : Tol) (dt : T) (x y : ℚ) (h : |x - y| ≤ t.atol + t.rtol * |y|) (hne : x ≠ y) :
    close t (.num x) (.num y) = true ∧
    arrayDifferences (some t) ⟨none, [⟨dt, false, [1], [.num x]⟩]⟩ ⟨none, [⟨dt, false, [1], [.num y]⟩]⟩ = some (.array ⟨false, false, true, false⟩) := by
  have hc : close t (.num x) (.num y) = true := decide_eq_true h
  refine ⟨hc, ?_⟩
  unfold arrayDifferences
  dsimp only
  unfold compareArrays valuesDiffer reshaped
  simp [hc, sumDiffers, nansum, differs, add, hne]

/-- C231, negation: with a tolerance there is an exception instead of a report as soon as a common column is a text, even if all columns are the same. -/
theorem C231_text_fails (t : Tol) (isText : T → Bool) (a : Table T) (ha : ProperTable isText a) (l : List String) (hn : a.names = some l) (c : Arr T) (hc : c ∈ a.cols)
    (ht : c.isText = true) : arrayDifferences (some t) a a = none := by
  have key : ∀ cs : List String, (∃ n ∈ cs, IsColumn a n c) → compareColumns (some t) a a cs = none := by
    intro cs
    induction cs with
    | nil => rintro ⟨n, h, -⟩; simp at h
    | cons m cs ih =>
      rintro ⟨n, h, hcol⟩
      rw [compareColumns]
      cases hm : a.col m with
      | none => rfl
      | some x =>
        dsimp only
        cases hx : compareArrays (some t) x x with
        | none => rfl
        | some d =>
          dsimp only
          rcases List.mem_cons.mp h with rfl | h
          · have := (col_iff a ha n c).mpr hcol
            rw [hm] at this
            cases this
            unfold compareArrays valuesDiffer at hx
            rw [reshaped_self] at hx
            simp [ht] at hx
          · rw [ih ⟨n, h, hcol⟩]
            rfl
  obtain ⟨i, hi, rfl⟩ := List.mem_iff_getElem.mp hc
  have hl := (ha.names l hn).2
  have hi' : i < l.length := by omega
  unfold arrayDifferences
  rw [hn]
  dsimp only
  rw [key _ ⟨l[i], ?_, l, hn, i, List.getElem?_eq_getElem hi', List.getElem?_eq_getElem hi⟩]
  · rfl
  · rw [List.mem_filter, decide_eq_true_eq]
    exact ⟨List.getElem_mem _, List.getElem_mem _⟩

/-- C231: values that agree within 1, with the same sum. -/
example : ∃ d, arrayDifferences (some ⟨0, 1⟩) ⟨none, [⟨"f8", false, [2], [.num 1, .num 2]⟩]⟩ ⟨none, [⟨"f8", false, [2], [.num 2, .num 1]⟩]⟩ = some (.array d) ∧ ¬ Says (.array d) := by
  obtain ⟨d, h1, h2⟩ := C231_close_partial ⟨0, 1⟩ (⟨"f8", false, [2], [.num 1, .num 2]⟩ : Arr String) ⟨"f8", false, [2], [.num 2, .num 1]⟩ rfl rfl rfl [1, 2] [2, 1] rfl rfl
  exact ⟨d, h1, h2.mpr ⟨rfl, by decide +kernel, by norm_num⟩⟩

/-- Two tables: the first has an additional column, the common column `x` differs in a value and `n` is the same. -/
def exFirst : Table String := ⟨some ["x", "n", "old"], [⟨"f8", false, [2], [.num 1, .nan]⟩, ⟨"S8", true, [2], [.text "a", .text "b"]⟩, ⟨"f8", false, [2], [.num 0, .num 0]⟩]⟩
def exSecond : Table String := ⟨some ["x", "n"], [⟨"f8", false, [2], [.num 1, .num 2]⟩, ⟨"S8", true, [2], [.text "a", .text "b"]⟩]⟩

/-- C231: the report for the example. -/
example : arrayDifferences none exFirst exSecond = some (.table ["old"] [] false [("x", ⟨false, false, true, true⟩), ("n", ⟨false, false, false, false⟩)]) ∧
    arrayDifferences (some ⟨1, 1⟩) exFirst exSecond = none := by
  decide +kernel

example : ProperTable (fun s => s == "S8") exSecond := by
  refine ⟨?_, ?_, ?_⟩
  · intro l h
    cases h
    exact ⟨by decide, rfl⟩
  · intro h
    cases h
  · intro c hc
    simp only [exSecond, List.mem_cons, List.not_mem_nil, or_false] at hc
    rcases hc with rfl | rfl
    · exact ⟨by decide, by simp, by simp⟩
    · exact ⟨by decide, by simp, by simp⟩

end BTA.ArrayDiff
