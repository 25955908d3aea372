import Verif.Spec.FitArgs
/-
Lemmas for the arguments of `fit_tracks`.
-/
namespace BTA.FitArgs
open BTA.Fit BTA.FitArgs.Spec

theorem collect_some {V W : Type} (f : V → Option W) (l : List V) (ws : List W) :
    collect f l = some ws ↔ List.Forall₂ (fun v w => f v = some w) l ws := by
  induction l generalizing ws with
  | nil => simp [collect, eq_comm]
  | cons v r ih =>
    unfold collect
    cases hv : f v with
    | none =>
      simp only [reduceCtorEq, false_iff]
      intro h
      cases h with
      | cons h _ => rw [hv] at h; cases h
    | some w =>
      cases hr : collect f r with
      | none =>
        simp only [reduceCtorEq, false_iff]
        intro h
        cases h with
        | cons _ h => rw [← ih, hr] at h; cases h
      | some us =>
        simp only [Option.some.injEq]
        constructor
        · rintro rfl
          exact .cons hv ((ih us).mp hr)
        · intro h
          cases h with
          | cons h1 h2 =>
            rw [hv] at h1
            rw [← ih, hr] at h2
            injection h1 with h1
            injection h2 with h2
            rw [h1, h2]

theorem forall₂_iff {V W : Type} {r s : V → W → Prop} (h : ∀ v w, r v w ↔ s v w) (l : List V) (ws : List W) :
    List.Forall₂ r l ws ↔ List.Forall₂ s l ws :=
  ⟨fun x => x.imp fun v w => (h v w).mp, fun x => x.imp fun v w => (h v w).mpr⟩

theorem dutOf_some (n : Nat) (v : Py) (d : Nat) : dutOf n v = some d ↔ IsDut n v d := by
  unfold IsDut
  cases v with
  | bool b =>
    simp only [dutOf]
    constructor
    · intro h
      split_ifs at h with hb
      injection h with h
      subst h
      exact ⟨hb, .inr ⟨b, rfl, rfl⟩⟩
    · rintro ⟨h, h1 | ⟨b', h1, h2⟩⟩
      · cases h1
      · injection h1 with h1
        subst h1 h2
        rw [if_pos h]
  | int i =>
    simp only [dutOf]
    constructor
    · intro h
      split_ifs at h with hb
      injection h with h
      subst h
      exact ⟨hb.2, .inl (by rw [Int.toNat_of_nonneg hb.1])⟩
    · rintro ⟨h, h1 | ⟨b', h1, h2⟩⟩
      · injection h1 with h1
        subst h1
        rw [if_pos ⟨by omega, by simpa using h⟩]
        simp
      · cases h1
  | none => simp [dutOf]
  | float q => simp [dutOf]
  | list l => simp [dutOf]
  | tuple l => simp [dutOf]

theorem duts_some (n : Nat) (l : List Py) (ds : List Nat) : collect (dutOf n) l = some ds ↔ List.Forall₂ (IsDut n) l ds := by
  rw [collect_some]
  exact forall₂_iff (dutOf_some n) l ds

theorem allDuts_some (n : Nat) (ds : List Nat) : collect (dutOf n) (allDuts n) = some ds ↔ ds = List.range n := by
  rw [duts_some]
  unfold allDuts
  have h : ∀ (l ds : List Nat), (∀ d ∈ l, d < n) → (List.Forall₂ (IsDut n) (l.map fun (d : Nat) => Py.int d) ds ↔ ds = l) := by
    intro l
    induction l with
    | nil => intro ds _; cases ds <;> simp
    | cons d l ih =>
      intro ds hd
      cases ds with
      | nil => simp
      | cons d' ds =>
        rw [List.map_cons, List.forall₂_cons, ih ds fun x hx => hd x (List.mem_cons_of_mem _ hx)]
        have : IsDut n (Py.int d) d' ↔ d' = d := by
          unfold IsDut
          constructor
          · rintro ⟨-, h | ⟨b, h, -⟩⟩
            · injection h with h
              exact_mod_cast h.symm
            · cases h
          · rintro rfl
            exact ⟨hd d' List.mem_cons_self, .inl rfl⟩
        rw [this, List.cons.injEq]
  exact h _ _ fun d hd => List.mem_range.mp hd

theorem seq_iff (v : Py) (l : List Py) : IsSeq v l ↔ iterable v = true ∧ items v = l := by
  unfold IsSeq
  cases v <;> simp [iterable, items]

theorem scalar_dut (n : Nat) (v : Py) (d : Nat) (h : IsDut n v d) : scalar v = true := by
  rcases h with ⟨-, rfl | ⟨b, rfl, -⟩⟩ <;> rfl

theorem scalar_duts (n : Nat) (l : List Py) (ds : List Nat) (h : List.Forall₂ (IsDut n) l ds) : l.all scalar = true := by
  induction h with
  | nil => rfl
  | cons h _ ih => rw [List.all_cons, ih, scalar_dut n _ _ h]; rfl

theorem selectDuts_ok (n : Nat) (v : Py) (ds : List Nat) : FitArgs.selectDuts n v = .ok ds ↔ SelectMeans n v ds := by
  unfold FitArgs.selectDuts
  have key : (match collect (dutOf n) (dutItems n v) with
      | none => (Except.error Err.noDut : Except Err (List Nat))
      | some ds => if ds.Nodup then .ok ds else .error .selectDuts) = .ok ds ↔ collect (dutOf n) (dutItems n v) = some ds ∧ ds.Nodup := by
    cases collect (dutOf n) (dutItems n v) with
    | none => simp
    | some us =>
      dsimp only
      constructor
      · intro h
        split_ifs at h with hn
        injection h with h
        subst h
        exact ⟨rfl, hn⟩
      · rintro ⟨h, hn⟩
        injection h with h
        subst h
        rw [if_pos hn]
  refine key.trans ?_
  unfold dutItems
  constructor
  · rintro ⟨h, hn⟩
    split_ifs at h with h1 h2
    · rw [allDuts_some] at h
      subst h
      cases v with
      | none => exact .all
      | _ => cases h1
    · rw [duts_some] at h
      exact .many v ds ⟨items v, (seq_iff v _).mpr ⟨h2, rfl⟩, h⟩ hn
    · rw [duts_some] at h
      cases h with
      | cons h h' =>
        cases h'
        exact .one v _ h
  · intro h
    cases h with
    | all => exact ⟨(allDuts_some n _).mpr rfl, List.nodup_range⟩
    | one v d h =>
      have hs := scalar_dut n v d h
      unfold scalar at hs
      rw [Bool.and_eq_true, Bool.not_eq_true', Bool.not_eq_true'] at hs
      rw [hs.1, hs.2]
      exact ⟨(duts_some n _ _).mpr (.cons h .nil), List.nodup_singleton d⟩
    | many v ds h hn =>
      obtain ⟨l, hl, h⟩ := h
      refine ⟨?_, hn⟩
      obtain ⟨h1, h2⟩ := (seq_iff v l).mp hl
      have h3 : isNone v = false := by cases v <;> first | rfl | cases h1
      rw [h3, h1, h2]
      exact (duts_some n _ _).mpr h

theorem replicate_lists {V W : Type} (f : V → Option W) (v : V) (m : Nat) (hm : m ≠ 0) (ws : List W) :
    collect f (List.replicate m v) = some ws ↔ ∃ w, f v = some w ∧ ws = List.replicate m w := by
  induction m generalizing ws with
  | zero => exact absurd rfl hm
  | succ m ih =>
    rw [collect_some, List.replicate_succ]
    by_cases h0 : m = 0
    · subst h0
      constructor
      · intro h
        cases h with
        | cons h h' =>
          cases h'
          exact ⟨_, h, rfl⟩
      · rintro ⟨w, h, rfl⟩
        exact .cons h .nil
    · constructor
      · intro h
        cases h with
        | cons h h' =>
          rw [← collect_some, ih h0] at h'
          obtain ⟨w', hw', rfl⟩ := h'
          rw [h] at hw'
          injection hw' with hw'
          subst hw'
          exact ⟨_, h, rfl⟩
      · rintro ⟨w, h, rfl⟩
        rw [List.replicate_succ]
        exact .cons h ((collect_some f _ _).mp ((ih h0 _).mpr ⟨w, h, rfl⟩))

theorem duts_iff (n : Nat) (v : Py) (ds : List Nat) : Duts n v ds ↔ iterable v = true ∧ collect (dutOf n) (items v) = some ds := by
  unfold Duts
  constructor
  · rintro ⟨l, hl, h⟩
    obtain ⟨h1, rfl⟩ := (seq_iff v l).mp hl
    exact ⟨h1, (duts_some n _ _).mpr h⟩
  · rintro ⟨h1, h⟩
    exact ⟨items v, (seq_iff v _).mpr ⟨h1, rfl⟩, (duts_some n _ _).mp h⟩

/-- An item of the list of lists. -/
theorem fill_duts (n : Nat) (whole : List Py) (default : List Nat) (hw : ∀ ds, collect (dutOf n) whole = some ds ↔ ds = default) (x : Py)
    (ds : List Nat) : (iterable (fill whole x) = true ∧ collect (dutOf n) (items (fill whole x)) = some ds) ↔
      x = .none ∧ ds = default ∨ Duts n x ds := by
  unfold fill
  by_cases hx : isNone x = true
  · have : x = .none := by cases x <;> first | rfl | cases hx
    subst this
    rw [if_pos hx]
    have hd : ¬ Duts n .none ds := by rw [duts_iff]; simp [iterable]
    simp only [hd, or_false, true_and, iterable, items]
    exact hw ds
  · rw [if_neg hx, duts_iff]
    have : x ≠ .none := by rintro rfl; exact hx rfl
    simp [this]

theorem all_iterable {n : Nat} (l : List Py) (ls : List (List Nat)) (h : List.Forall₂ (fun x ds => iterable x = true ∧
    collect (dutOf n) (items x) = some ds) l ls) : l.all iterable = true ∧ collect (collect (dutOf n)) (l.map items) = some ls := by
  induction h with
  | nil => exact ⟨rfl, rfl⟩
  | cons h _ ih =>
    obtain ⟨h1, h2⟩ := h
    rw [List.all_cons, h1, ih.1, List.map_cons, collect, h2, ih.2]
    exact ⟨rfl, rfl⟩

theorem iterable_all {n : Nat} (l : List Py) (ls : List (List Nat)) (h1 : l.all iterable = true)
    (h2 : collect (collect (dutOf n)) (l.map items) = some ls) :
    List.Forall₂ (fun x ds => iterable x = true ∧ collect (dutOf n) (items x) = some ds) l ls := by
  rw [collect_some] at h2
  rw [List.forall₂_map_left_iff] at h2
  rw [List.all_eq_true] at h1
  induction h2 with
  | nil => exact .nil
  | cons h _ ih => exact .cons ⟨h1 _ List.mem_cons_self, h⟩ (ih fun x hx => h1 x (List.mem_cons_of_mem _ hx))

/-- The lists of DUTs. -/
theorem lists_ok (e : Err) (n m : Nat) (hm : m ≠ 0) (whole : List Py) (default : List Nat)
    (hw : ∀ ds, collect (dutOf n) whole = some ds ↔ ds = default) (hws : whole.all scalar = true) (v : Py) (ls : List (List Nat)) :
    (iterable (fill whole v) = true ∧ ∃ r, listsOf e whole m (fill whole v) = .ok r ∧ collect (collect (dutOf n)) r = some ls) ↔
      ListMeans n m default v ls := by
  constructor
  · rintro ⟨hit, r, hr, hl⟩
    by_cases hv : isNone v = true
    · have : v = .none := by cases v <;> first | rfl | cases hv
      subst this
      have : fill whole .none = .list whole := rfl
      rw [this] at hr
      unfold listsOf at hr
      have e1 : (items (.list whole)).all scalar = true := hws
      rw [if_pos e1] at hr
      injection hr with hr
      subst hr
      rw [replicate_lists _ _ _ hm] at hl
      obtain ⟨w, h1, rfl⟩ := hl
      rw [(hw w).mp h1]
      exact .nothing
    · have hf : fill whole v = v := by unfold fill; rw [if_neg hv]
      rw [hf] at hr hit
      unfold listsOf at hr
      by_cases hs : (items v).all scalar = true
      · rw [if_pos hs] at hr
        injection hr with hr
        subst hr
        rw [replicate_lists _ _ _ hm] at hl
        obtain ⟨w, h1, rfl⟩ := hl
        exact .same v w ((duts_iff n v w).mpr ⟨hit, h1⟩)
      · rw [if_neg hs] at hr
        cases v with
        | list l =>
          dsimp only at hr
          split_ifs at hr with h1 h2 <;> try cases hr
          rw [Bool.not_eq_true', Bool.not_eq_false] at h1
          have h3 := iterable_all _ _ h1 hl
          rw [List.forall₂_map_left_iff] at h3
          exact .each l ls (not_not.mp h2) ((forall₂_iff (fill_duts n whole default hw) l ls).mp h3)
        | tuple l =>
          dsimp only at hr
          split_ifs at hr with h0 h1 h2 <;> try cases hr
          rw [Bool.not_eq_true', Bool.not_eq_false] at h1
          have h3 := iterable_all _ _ h1 hl
          exact .eachTuple l ls (not_not.mp h2) ((forall₂_iff (fun x ds => (duts_iff n x ds).symm) l ls).mp h3)
        | _ => cases hit
  · intro h
    cases h with
    | nothing =>
      refine ⟨rfl, List.replicate m whole, ?_, (replicate_lists _ _ _ hm _).mpr ⟨default, (hw _).mpr rfl, rfl⟩⟩
      have : fill whole .none = .list whole := rfl
      rw [this]
      unfold listsOf
      rw [if_pos (show (items (.list whole)).all scalar = true from hws)]
      rfl
    | same v ds h =>
      obtain ⟨h1, h2⟩ := (duts_iff n v ds).mp h
      have hf : fill whole v = v := by cases v <;> first | rfl | cases h1
      rw [hf]
      refine ⟨h1, List.replicate m (items v), ?_, (replicate_lists _ _ _ hm _).mpr ⟨ds, h2, rfl⟩⟩
      unfold listsOf
      rw [if_pos (scalar_duts n _ ds ((duts_some n _ _).mp h2))]
    | each l ls hlen h =>
      have h3 := (forall₂_iff (fill_duts n whole default hw) l ls).mpr h
      have h4 : List.Forall₂ (fun x ds => iterable x = true ∧ collect (dutOf n) (items x) = some ds) (l.map (fill whole)) ls := by
        rw [List.forall₂_map_left_iff]
        exact h3
      obtain ⟨h5, h6⟩ := all_iterable _ _ h4
      refine ⟨rfl, _, ?_, h6⟩
      have hf : fill whole (.list l) = .list l := rfl
      rw [hf]
      unfold listsOf
      have hns : ¬ (items (.list l)).all scalar = true := by
        intro hs
        cases l with
        | nil => exact hm hlen.symm
        | cons x l =>
          cases h with
          | cons h _ =>
            have hs : scalar x = true := by
              have h1 : ((x :: l).all scalar) = true := hs
              rw [List.all_cons, Bool.and_eq_true] at h1
              exact h1.1
            rcases h with ⟨rfl, -⟩ | h
            · cases hs
            · rw [duts_iff] at h
              unfold scalar at hs
              rw [h.1] at hs
              cases hs
      rw [if_neg hns]
      dsimp only
      rw [h5]
      simp [hlen]
    | eachTuple l ls hlen h =>
      have h4 := (forall₂_iff (fun x ds => duts_iff n x ds) l ls).mp h
      obtain ⟨h5, h6⟩ := all_iterable _ _ h4
      refine ⟨rfl, _, ?_, h6⟩
      have hf : fill whole (.tuple l) = .tuple l := rfl
      rw [hf]
      unfold listsOf
      have hns : ¬ (items (.tuple l)).all scalar = true := by
        intro hs
        cases l with
        | nil => exact hm hlen.symm
        | cons x l =>
          cases h4 with
          | cons h4 _ =>
            have hs : scalar x = true := by
              have h1 : ((x :: l).all scalar) = true := hs
              rw [List.all_cons, Bool.and_eq_true] at h1
              exact h1.1
            unfold scalar at hs
            rw [h4.1] at hs
            cases hs
      have hnn : l.any isNone = false := by
        rw [Bool.eq_false_iff]
        intro hn
        rw [List.any_eq_true] at hn
        obtain ⟨x, hx, hn⟩ := hn
        rw [List.all_eq_true] at h5
        have := h5 x hx
        cases x <;> first | (cases hn; done) | cases this
      rw [if_neg hns]
      dsimp only
      rw [hnn, h5]
      simp [hlen]

theorem dutLists_ok (n : Nat) (r : List (List Py)) (ls : List (List Nat)) :
    dutLists n r = .ok ls ↔ collect (collect (dutOf n)) r = some ls := by
  unfold dutLists
  cases collect (collect (dutOf n)) r <;> simp

theorem allDuts_scalar (n : Nat) : (allDuts n).all scalar = true := by
  rw [List.all_eq_true]
  intro x hx
  obtain ⟨d, -, rfl⟩ := List.mem_map.mp hx
  rfl

theorem collect_length {V W : Type} (f : V → Option W) (l : List V) (ws : List W) (h : collect f l = some ws) : ws.length = l.length :=
  ((collect_some f l ws).mp h).length_eq.symm

theorem lengths (n : Nat) (r : List (List Py)) (ls : List (List Nat)) (h : collect (collect (dutOf n)) r = some ls) :
    (r.any fun l => decide (l.length < 2)) = true ↔ ¬ ∀ l ∈ ls, 2 ≤ l.length := by
  rw [collect_some] at h
  induction h with
  | nil => simp
  | cons h _ ih =>
    rw [List.any_cons, Bool.or_eq_true, ih, decide_eq_true_eq, ← collect_length _ _ _ h]
    simp only [List.mem_cons, forall_eq_or_imp]
    constructor
    · rintro (h1 | h1) ⟨h2, h3⟩
      · omega
      · exact h1 h3
    · intro h1
      by_contra h2
      push Not at h2
      exact h1 ⟨h2.1, h2.2⟩

theorem fitDuts_ok (n m : Nat) (hm : m ≠ 0) (v : Py) (ls : List (List Nat)) :
    fitDuts n m v = .ok ls ↔ ListMeans n m (List.range n) v ls ∧ ∀ l ∈ ls, 2 ≤ l.length := by
  rw [← lists_ok .fitDuts n m hm (allDuts n) (List.range n) (fun ds => allDuts_some n ds) (allDuts_scalar n)]
  unfold fitDuts
  constructor
  · intro h
    split_ifs at h with h0
    rw [Bool.or_eq_true, not_or, Bool.not_eq_true', Bool.not_eq_false] at h0
    cases hr : listsOf .fitDuts (allDuts n) m (fill (allDuts n) v) with
    | error e => rw [hr] at h; cases h
    | ok r =>
      rw [hr] at h
      dsimp only at h
      split_ifs at h with h1
      rw [dutLists_ok] at h
      refine ⟨⟨h0.1, r, rfl, h⟩, ?_⟩
      by_contra h2
      exact h1 ((lengths n r ls h).mpr h2)
  · rintro ⟨⟨h0, r, hr, h⟩, h2⟩
    have h1 : ¬ (r.any fun l => decide (l.length < 2)) = true := fun h1 => (lengths n r ls h).mp h1 h2
    have h3 : (items (fill (allDuts n) v)).isEmpty = false := by
      rw [Bool.eq_false_iff]
      intro h3
      rw [List.isEmpty_iff] at h3
      unfold listsOf at hr
      rw [h3] at hr
      injection hr with hr
      subst hr
      apply h1
      cases m with
      | zero => exact absurd rfl hm
      | succ m => simp [List.replicate_succ]
    rw [h0, h3]
    simp only [Bool.not_true, Bool.or_false, Bool.false_eq_true, if_false]
    rw [hr]
    dsimp only
    rw [if_neg h1, dutLists_ok]
    exact h

theorem hitDuts_ok (n m : Nat) (hm : m ≠ 0) (v : Py) (ls : List (List Nat)) :
    hitDuts n m v = .ok ls ↔ ListMeans n m [] v ls := by
  rw [← lists_ok .hitDuts n m hm [] [] (fun ds => by simp [collect, eq_comm]) rfl]
  unfold hitDuts
  constructor
  · intro h
    split_ifs at h with h0
    rw [Bool.not_eq_true', Bool.not_eq_false] at h0
    cases hr : listsOf .hitDuts [] m (fill [] v) with
    | error e => rw [hr] at h; cases h
    | ok r =>
      rw [hr] at h
      dsimp only at h
      rw [dutLists_ok] at h
      exact ⟨h0, r, rfl, h⟩
  · rintro ⟨h0, r, hr, h⟩
    rw [h0, hr]
    simp only [Bool.not_true, Bool.false_eq_true, if_false]
    rw [dutLists_ok]
    exact h

theorem number_some (v : Py) (q : ℚ) : number v = some q ↔ IsNumber v q := by
  unfold IsNumber
  cases v <;> simp [number, eq_comm]

theorem pair_items (l : List Py) (a b : ℚ) : l.map number = [some a, some b] ↔ ∃ x y, l = [x, y] ∧ number x = some a ∧ number y = some b := by
  rcases l with _ | ⟨x, _ | ⟨y, _ | ⟨z, l⟩⟩⟩ <;> simp

theorem distance_seq (v : Py) (hv : v ≠ .none) (d : Option (ℚ × ℚ)) :
    distance v = some d ↔ ∃ a b, (items v).map number = [some a, some b] ∧ d = some (a, b) := by
  have key : ∀ l : List (Option ℚ), pairOf l = some d ↔ ∃ a b, l = [some a, some b] ∧ d = some (a, b) := by
    intro l
    unfold pairOf
    split
    · rename_i x y
      constructor
      · intro h
        injection h with h
        exact ⟨x, y, rfl, h.symm⟩
      · rintro ⟨a, b, h, rfl⟩
        simp only [List.cons.injEq, Option.some.injEq, and_true] at h
        rw [h.1, h.2]
    · rename_i h
      constructor
      · intro h1
        cases h1
      · rintro ⟨a, b, rfl, -⟩
        exact absurd rfl (h a b)
  cases v with
  | none => exact absurd rfl hv
  | bool b => exact key ((items (.bool b)).map number)
  | int b => exact key ((items (.int b)).map number)
  | float b => exact key ((items (.float b)).map number)
  | list b => exact key ((items (.list b)).map number)
  | tuple b => exact key ((items (.tuple b)).map number)

theorem distance_some (v : Py) (d : Option (ℚ × ℚ)) : distance v = some d ↔ v = .none ∧ d = none ∨ ∃ p, IsPair v p ∧ d = some p := by
  by_cases hv : v = .none
  · subst hv
    constructor
    · intro h
      injection h with h
      exact .inl ⟨rfl, h.symm⟩
    · rintro (⟨-, rfl⟩ | ⟨p, ⟨x, y, h, -⟩, -⟩)
      · rfl
      · rcases h with h | h <;> cases h
  · rw [distance_seq v hv]
    constructor
    · rintro ⟨a, b, h, rfl⟩
      obtain ⟨x, y, h1, h2, h3⟩ := (pair_items _ _ _).mp h
      refine .inr ⟨(a, b), ⟨x, y, ?_, (number_some _ _).mp h2, (number_some _ _).mp h3⟩, rfl⟩
      rw [seq_iff]
      refine ⟨?_, h1⟩
      cases v <;> first | rfl | cases h1
    · rintro (⟨h, -⟩ | ⟨p, ⟨x, y, h, h1, h2⟩, rfl⟩)
      · exact absurd h hv
      · rw [seq_iff] at h
        exact ⟨p.1, p.2, (pair_items _ _ _).mpr ⟨x, y, h.2, (number_some _ _).mpr h1, (number_some _ _).mpr h2⟩, rfl⟩

theorem distances_ok (e : Err) (n : Nat) (hn : n ≠ 0) (v : Py) (ds : List (Option (ℚ × ℚ))) : distances e n v = .ok ds ↔ DistMeans n v ds := by
  have key : distances e n v = .ok ds ↔ (if tupleOrNone v then List.replicate n v else items v).length = n ∧
      List.Forall₂ (fun x d => x = .none ∧ d = none ∨ ∃ p, IsPair x p ∧ d = some p)
        (if tupleOrNone v then List.replicate n v else items v) ds := by
    unfold distances
    dsimp only
    generalize (if tupleOrNone v then List.replicate n v else items v) = l
    rw [← forall₂_iff distance_some, ← collect_some]
    by_cases hl : l.length = n
    · have : l.isEmpty = false := by
        cases l with
        | nil => exact absurd hl.symm hn
        | cons _ _ => rfl
      rw [this]
      simp only [hl, ne_eq, not_true_eq_false, decide_false, Bool.or_false, Bool.false_eq_true, if_false, true_and]
      cases collect distance l <;> simp
    · simp [hl]
  rw [key]
  constructor
  · rintro ⟨h1, h2⟩
    cases v with
    | none =>
      have h2 : List.Forall₂ _ (List.replicate n Py.none) ds := h2
      rw [← forall₂_iff distance_some, ← collect_some, replicate_lists _ _ _ hn] at h2
      obtain ⟨w, hw, rfl⟩ := h2
      injection hw with hw
      subst hw
      exact .nothing
    | tuple l =>
      have h2 : List.Forall₂ _ (List.replicate n (Py.tuple l)) ds := h2
      rw [← forall₂_iff distance_some, ← collect_some, replicate_lists _ _ _ hn] at h2
      obtain ⟨w, hw, rfl⟩ := h2
      rcases (distance_some _ _).mp hw with ⟨h, -⟩ | ⟨p, hp, rfl⟩
      · cases h
      · exact .same l p hp
    | list l => exact .each l ds h1 h2
    | bool b => exact absurd h1.symm hn
    | int b => exact absurd h1.symm hn
    | float b => exact absurd h1.symm hn
  · intro h
    cases h with
    | nothing =>
      refine ⟨by simp [tupleOrNone], ?_⟩
      show List.Forall₂ _ (List.replicate n Py.none) _
      rw [← forall₂_iff distance_some, ← collect_some, replicate_lists _ _ _ hn]
      exact ⟨none, rfl, rfl⟩
    | same l p hp =>
      refine ⟨by simp [tupleOrNone], ?_⟩
      show List.Forall₂ _ (List.replicate n (Py.tuple l)) _
      rw [← forall₂_iff distance_some, ← collect_some, replicate_lists _ _ _ hn]
      exact ⟨some p, (distance_some _ _).mpr (.inr ⟨p, hp, rfl⟩), rfl⟩
    | each l ds hl h => exact ⟨hl, h⟩

theorem booleans (l : List Py) (bs : List Bool) : collect boolean l = some bs ↔ l = bs.map Py.bool := by
  rw [collect_some]
  have h : ∀ v b, boolean v = some b ↔ v = .bool b := by intro v b; cases v <;> simp [boolean]
  rw [forall₂_iff h]
  induction l generalizing bs with
  | nil => cases bs <;> simp
  | cons v l ih =>
    cases bs with
    | nil => simp
    | cons b bs =>
      rw [List.forall₂_cons, List.map_cons, List.cons.injEq]
      exact and_congr_right fun _ => ih bs

theorem excludes_ok (m : Nat) (hm : m ≠ 0) (v : Py) (bs : List Bool) : excludes m v = .ok bs ↔ ExcludeMeans m v bs := by
  have key : excludes m v = .ok bs ↔ (if iterable v then items v else List.replicate m v).length = m ∧
      (if iterable v then items v else List.replicate m v) = bs.map Py.bool := by
    unfold excludes
    rw [← booleans]
    by_cases h0 : (iterable v && (items v).isEmpty) = true
    · rw [if_pos h0]
      rw [Bool.and_eq_true, List.isEmpty_iff] at h0
      rw [if_pos h0.1, h0.2]
      simp [Ne.symm hm]
    · rw [if_neg h0]
      dsimp only
      generalize (if iterable v then items v else List.replicate m v) = l
      by_cases hl : l.length = m
      · simp only [hl, ne_eq, not_true_eq_false, if_false, true_and]
        cases collect boolean l <;> simp
      · simp [hl]
  rw [key]
  constructor
  · rintro ⟨h1, h2⟩
    split_ifs at h1 h2 with hi
    · refine .each v bs ((seq_iff _ _).mpr ⟨hi, h2⟩) ?_
      rw [h2, List.length_map] at h1
      exact h1
    · rw [← booleans, replicate_lists _ _ _ hm] at h2
      obtain ⟨b, hb, rfl⟩ := h2
      have : v = .bool b := by cases v <;> simp [boolean] at hb ⊢; exact hb
      subst this
      exact .same b
  · intro h
    cases h with
    | same b => exact ⟨by simp [iterable], by simp [iterable]⟩
    | each v bs h hl =>
      rw [seq_iff] at h
      rw [if_pos h.1, h.2]
      exact ⟨by simpa using hl, rfl⟩

theorem minHit_some (v : Py) (k : Option Nat) : minHit v = some k ↔ IsMinHits v k := by
  unfold IsMinHits
  cases v with
  | int i =>
    simp only [minHit, reduceCtorEq, false_and, Py.int.injEq, false_or, exists_false, or_false]
    constructor
    · intro h
      split_ifs at h with h0
      injection h with h
      exact ⟨i.toNat, (Int.toNat_of_nonneg h0).symm, h.symm⟩
    · rintro ⟨j, rfl, rfl⟩
      rw [if_pos (by omega)]
      simp
  | _ => simp [minHit, eq_comm]

theorem minHits_ok (m : Nat) (hm : m ≠ 0) (v : Py) (ks : List (Option Nat)) : FitArgs.minHits m v = .ok ks ↔ MinMeans m v ks := by
  have key : FitArgs.minHits m v = .ok ks ↔ (if iterable v then items v else List.replicate m v).length = m ∧
      collect minHit (if iterable v then items v else List.replicate m v) = some ks := by
    unfold FitArgs.minHits
    dsimp only
    generalize (if iterable v then items v else List.replicate m v) = l
    by_cases hl : l.length = m
    · simp only [hl, ne_eq, not_true_eq_false, if_false, true_and]
      cases collect minHit l <;> simp
    · simp [hl]
  rw [key]
  constructor
  · rintro ⟨h1, h2⟩
    split_ifs at h1 h2 with hi
    · rw [collect_some, forall₂_iff minHit_some] at h2
      exact .each v _ ks ((seq_iff _ _).mpr ⟨hi, rfl⟩) h1 h2
    · rw [replicate_lists _ _ _ hm] at h2
      obtain ⟨k, hk, rfl⟩ := h2
      exact .same v k ((minHit_some v k).mp hk)
  · intro h
    cases h with
    | same k h =>
      have hi : iterable v = false := by
        rcases h with ⟨rfl, -⟩ | ⟨i, rfl, -⟩ | ⟨b, rfl, -⟩ <;> rfl
      rw [hi]
      simp only [Bool.false_eq_true, if_false]
      refine ⟨by simp, ?_⟩
      rw [replicate_lists _ _ _ hm]
      exact ⟨k, (minHit_some v k).mpr h, rfl⟩
    | each l _ h hl hf =>
      rw [seq_iff] at h
      rw [if_pos h.1, h.2, collect_some, forall₂_iff minHit_some]
      exact ⟨hl, hf⟩

end BTA.FitArgs
