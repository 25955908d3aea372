import Verif.Spec.CompareFiles
import Mathlib.Tactic.Ring
/-
Lemmas on the comparison of nodes and files.
-/
namespace BTA.CompareFiles
open BTA.Spec

variable {T C : Type} [DecidableEq T] [DecidableEq C]

theorem Node.ext' {a b : Node T C} (h1 : a.names = b.names) (h2 : a.inner = b.inner) (h3 : a.types = b.types) (h4 : a.rows = b.rows) : a = b := by
  cases a; cases b; simp_all

/-- Columns of rows of the same length. -/
theorem columns_ext (n : Nat) (u v : List (List C)) (hl : u.length = v.length) (hu : ∀ r ∈ u, r.length = n) (hv : ∀ r ∈ v, r.length = n)
    (h : ∀ i, i < n → u.map (fun r => r[i]?) = v.map fun r => r[i]?) : u = v := by
  apply List.ext_getElem hl
  intro k h1 h2
  have l1 := hu _ (List.getElem_mem h1)
  have l2 := hv _ (List.getElem_mem h2)
  apply List.ext_getElem?
  intro i
  by_cases hi : i < n
  · have h3 := congrArg (fun l => l[k]?) (h i hi)
    simpa [List.getElem?_map, List.getElem?_eq_getElem h1, List.getElem?_eq_getElem h2] using h3
  · rw [List.getElem?_eq_none (by omega), List.getElem?_eq_none (by omega)]

theorem equalColumns_iff (a b : Node T C) (l : List Nat) : equalColumns a b l = true ↔ ∀ i ∈ l, a.dtype i = b.dtype i ∧ a.column i = b.column i := by
  induction l with
  | nil => simp [equalColumns]
  | cons i is ih =>
    unfold equalColumns
    by_cases h1 : a.dtype i = b.dtype i
    · by_cases h2 : a.column i = b.column i
      · simp [h1, h2, ih]
      · simp [h1, h2]
    · simp [h1]

theorem nanEqual_iff (a b : Node T C) (ha : ProperNode a) (hb : ProperNode b) : nanEqual a b = true ↔ a = b := by
  constructor
  · intro h
    unfold nanEqual at h
    split at h
    · cases h
    rename_i h1
    split at h
    · cases h
    rename_i h2
    have h1' : a.rows.length = b.rows.length ∧ a.inner = b.inner := by
      have := not_not.mp h1
      unfold Node.shape at this
      exact List.cons_eq_cons.mp this
    split at h
    · rename_i h3
      split at h
      · cases h
      rename_i h4
      split at h
      · cases h
      rename_i h5
      have na : a.names = none := by simpa using h3
      have nb : b.names = none := by
        have := not_not.mp h2
        rw [na] at this
        simpa using this.symm
      unfold ProperNode at ha hb
      rw [na] at ha
      rw [nb] at hb
      simp only at ha hb
      refine Node.ext' (na.trans nb.symm) h1'.2 ?_ ?_
      · have h4' := not_not.mp h4
        unfold Node.dtype at h4'
        match hta : a.types, htb : b.types, ha.1, hb.1 with
        | [x], [y], _, _ =>
          rw [hta, htb] at h4'
          simpa using h4'
      · refine columns_ext 1 _ _ h1'.1 ha.2 hb.2 fun i hi => ?_
        obtain rfl : i = 0 := by omega
        exact not_not.mp h5
    · rename_i h3
      split at h
      · cases h
      rename_i h4
      have hn := not_not.mp h4
      rw [equalColumns_iff] at h
      cases hna : a.names with
      | none => simp [hna] at h3
      | some ns =>
        have hnb : b.names = some ns := hn ▸ hna
        unfold ProperNode at ha hb
        rw [hna] at ha
        rw [hnb] at hb
        simp only at ha hb
        rw [hna] at h
        simp only [Option.getD_some, List.mem_range] at h
        refine Node.ext' hn h1'.2 ?_ (columns_ext ns.length _ _ h1'.1 ha.2.2 hb.2.2 fun i hi => (h i hi).2)
        apply List.ext_getElem?
        intro i
        by_cases hi : i < ns.length
        · exact (h i hi).1
        · rw [List.getElem?_eq_none (by omega), List.getElem?_eq_none (by omega)]
  · rintro rfl
    unfold nanEqual
    simp [equalColumns_iff]

theorem proper_read (a : Node T C) (h : ProperNode a) (s t : Nat) : ProperNode (a.read s t) := by
  have hsub : ∀ r ∈ (a.read s t).rows, r ∈ a.rows := fun r hr => List.mem_of_mem_drop (List.mem_of_mem_take hr)
  unfold ProperNode at h ⊢
  change match a.names with
    | none => a.types.length = 1 ∧ ∀ r ∈ (a.read s t).rows, r.length = 1
    | some ns => a.inner = [] ∧ a.types.length = ns.length ∧ ∀ r ∈ (a.read s t).rows, r.length = ns.length
  cases hn : a.names with
  | none => rw [hn] at h; exact ⟨h.1, fun r hr => h.2 r (hsub r hr)⟩
  | some ns => rw [hn] at h; exact ⟨h.1, h.2.1, fun r hr => h.2.2 r (hsub r hr)⟩

theorem read_eq_iff (a b : Node T C) (s t : Nat) : a.read s t = b.read s t ↔
    (a.names = b.names ∧ a.inner = b.inner ∧ a.types = b.types) ∧ (a.rows.drop s).take (t - s) = (b.rows.drop s).take (t - s) := by
  constructor
  · intro h
    have h1 := congrArg Node.names h
    have h2 := congrArg Node.inner h
    have h3 := congrArg Node.types h
    have h4 := congrArg Node.rows h
    exact ⟨⟨h1, h2, h3⟩, h4⟩
  · rintro ⟨⟨h1, h2, h3⟩, h4⟩
    exact Node.ext' h1 h2 h3 h4

/-- The first elements up to a multiple of the step, from two equal parts. -/
theorem take_split (u v : List (List C)) (n k : Nat) : u.take (n + k) = v.take (n + k) ↔ u.take n = v.take n ∧ (u.drop n).take k = (v.drop n).take k := by
  constructor
  · intro h
    refine ⟨?_, ?_⟩
    · have := congrArg (List.take n) h
      simpa [List.take_take] using this
    · have := congrArg (List.drop n) h
      simpa [List.drop_take] using this
  · rintro ⟨h1, h2⟩
    rw [List.take_add, List.take_add, h1, h2]

/-- General form of the loop over the slices: if slices are compared row by row, the loop compares all rows read. -/
theorem compareLoop_spec (close : Option (C → C → Bool)) (cs n : Nat) (a b : Node T C) (P : Nat → Prop)
    (hn : readRows cs a.inner = some n)
    (hstep : ∀ s, s < a.rows.length → ∃ r, compareSlices close (a.read s (s + n)) (b.read s (s + n)) = some r ∧ (r = true ↔ P s)) (fuel s : Nat) (hf : a.rows.length - s < fuel) :
    ∃ r, compareLoop close cs a b fuel s = some r ∧ (r = true ↔ ∀ j, s + j * n < a.rows.length → P (s + j * n)) := by
  have hpos : 0 < n := by
    unfold readRows at hn
    split at hn
    · cases hn
    · have := Option.some.inj hn; omega
  induction fuel generalizing s with
  | zero => omega
  | succ fuel ih =>
    unfold compareLoop
    by_cases hs : s < a.rows.length
    · rw [if_pos hs, hn]
      obtain ⟨r, hr, hr'⟩ := hstep s hs
      dsimp only
      rw [hr]
      cases r with
      | false =>
        refine ⟨false, rfl, ?_⟩
        constructor
        · intro h; cases h
        · intro h
          have := h 0 (by simpa using hs)
          exact hr'.mpr (by simpa using this)
      | true =>
        obtain ⟨r2, h2, h3⟩ := ih (s + n) (by omega)
        refine ⟨r2, h2, h3.trans ⟨fun h j hj => ?_, fun h j hj => ?_⟩⟩
        · cases j with
          | zero => simpa using hr'.mp rfl
          | succ j =>
            have e : s + n + j * n = s + (j + 1) * n := by ring_nf
            have := h j (by rw [e]; exact hj)
            rwa [e] at this
        · have e : s + n + j * n = s + (j + 1) * n := by ring_nf
          rw [e] at hj ⊢
          exact h (j + 1) hj
    · rw [if_neg hs]
      refine ⟨true, rfl, ?_⟩
      simp only [true_iff]
      intro j hj
      have : s ≤ s + j * n := Nat.le_add_right _ _
      omega

theorem forall₂_iff_getElem? {α : Type} (R : α → α → Prop) (u v : List α) : List.Forall₂ R u v ↔ ∀ i : Nat, Option.Rel R (u[i]?) (v[i]?) := by
  induction u generalizing v with
  | nil =>
    cases v with
    | nil => simp [Option.Rel.none]
    | cons y v =>
      simp only [List.forall₂_nil_left_iff, reduceCtorEq, false_iff, not_forall]
      refine ⟨0, ?_⟩
      intro h
      simp at h
  | cons x u ih =>
    cases v with
    | nil =>
      simp only [List.forall₂_nil_right_iff, reduceCtorEq, false_iff, not_forall]
      refine ⟨0, ?_⟩
      intro h
      simp at h
    | cons y v =>
      rw [List.forall₂_cons, ih]
      constructor
      · rintro ⟨h1, h2⟩ i
        cases i with
        | zero => simpa using Option.Rel.some h1
        | succ i => simpa using h2 i
      · intro h
        refine ⟨?_, fun i => by simpa using h (i + 1)⟩
        have := h 0
        simp only [List.getElem?_cons_zero] at this
        cases this with
        | some h => exact h

theorem getElem?_slice {α : Type} (l : List α) (s n k : Nat) : ((l.drop s).take n)[k]? = if k < n then l[s + k]? else none := by
  rw [List.getElem?_take]
  split <;> simp_all [List.getElem?_drop]

/-- Comparison of a node from the comparison of its slices. -/
theorem compareNode_spec (close : Option (C → C → Bool)) (cs n : Nat) (a b : Node T C) (M : Prop) (R : List C → List C → Prop)
    (hn : readRows cs a.inner = some n)
    (hslice : ∀ s t, ∃ r, compareSlices close (a.read s t) (b.read s t) = some r ∧ (r = true ↔ M ∧ List.Forall₂ R (a.read s t).rows (b.read s t).rows)) :
    ∃ r, compareNode close cs a b = some r ∧ (M ∧ List.Forall₂ R a.rows b.rows → r = true) ∧
      (¬ n ∣ a.rows.length ∨ (a.rows ≠ [] ∧ b.rows.length ≤ a.rows.length) → r = true → M ∧ List.Forall₂ R a.rows b.rows) := by
  obtain ⟨r, h1, h2⟩ := compareLoop_spec close cs n a b (fun s => M ∧ List.Forall₂ R (a.read s (s + n)).rows (b.read s (s + n)).rows) hn
    (fun s _ => hslice s (s + n)) (a.rows.length + 1) 0 (by omega)
  have hpos : 0 < n := by
    unfold readRows at hn
    split at hn
    · cases hn
    · have := Option.some.inj hn; omega
  have hrows : ∀ (x : Node T C) s, (x.read s (s + n)).rows = (x.rows.drop s).take n := by
    intro x s
    change (x.rows.drop s).take (s + n - s) = _
    congr 1
    omega
  refine ⟨r, h1, ?_, ?_⟩
  · rintro ⟨hM, hR⟩
    rw [h2]
    intro j _
    refine ⟨hM, ?_⟩
    rw [hrows, hrows, forall₂_iff_getElem?]
    intro k
    rw [getElem?_slice, getElem?_slice]
    split
    · exact (forall₂_iff_getElem? R _ _).mp hR _
    · exact Option.Rel.none
  · intro hH hr
    have h3 := h2.mp hr
    have hne : 0 < a.rows.length := by
      rcases hH with h | ⟨h, -⟩
      · by_contra hc
        exact h (by rw [show a.rows.length = 0 by omega]; exact dvd_zero n)
      · exact List.length_pos_of_ne_nil h
    have hat : ∀ i, i / n * n < a.rows.length → Option.Rel R (a.rows[i]?) (b.rows[i]?) := by
      intro i hi
      have h4 := (h3 (i / n) (by simpa using hi)).2
      rw [hrows, hrows, forall₂_iff_getElem?] at h4
      have h5 := h4 (i % n)
      rw [getElem?_slice, getElem?_slice, if_pos (Nat.mod_lt _ hpos), if_pos (Nat.mod_lt _ hpos)] at h5
      have e : 0 + i / n * n + i % n = i := by rw [Nat.zero_add, Nat.mul_comm]; exact Nat.div_add_mod i n
      rwa [e] at h5
    refine ⟨(h3 0 (by simpa using hne)).1, ?_⟩
    have hlen : b.rows.length ≤ a.rows.length := by
      rcases hH with h | ⟨-, h⟩
      · have h6 := hat a.rows.length (by
          have h7 : a.rows.length / n * n ≤ a.rows.length := Nat.div_mul_le_self _ _
          have h8 : a.rows.length / n * n ≠ a.rows.length := fun h8 => h ⟨a.rows.length / n, by rw [Nat.mul_comm]; exact h8.symm⟩
          omega)
        rw [List.getElem?_eq_none (Nat.le_refl _)] at h6
        have h9 : b.rows[a.rows.length]? = none := by
          cases hb : b.rows[a.rows.length]? with
          | none => rfl
          | some y => rw [hb] at h6; cases h6
        exact List.getElem?_eq_none_iff.mp h9
      · exact h
    rw [forall₂_iff_getElem?]
    intro i
    by_cases hi : i < a.rows.length
    · exact hat i (Nat.lt_of_le_of_lt (Nat.div_mul_le_self _ _) hi)
    · rw [List.getElem?_eq_none (by omega), List.getElem?_eq_none (by omega)]
      exact Option.Rel.none

/-- Slices in the exact comparison. -/
theorem exact_slice (a b : Node T C) (ha : ProperNode a) (hb : ProperNode b) (s t : Nat) :
    ∃ r, compareSlices none (a.read s t) (b.read s t) = some r ∧
      (r = true ↔ (a.names = b.names ∧ a.inner = b.inner ∧ a.types = b.types) ∧ List.Forall₂ Eq (a.read s t).rows (b.read s t).rows) := by
  refine ⟨_, rfl, ?_⟩
  rw [nanEqual_iff _ _ (proper_read a ha s t) (proper_read b hb s t), read_eq_iff, List.forall₂_eq_eq_eq]
  rfl

theorem forall₂_eq_iff {α : Type} (u v : List α) : List.Forall₂ Eq u v ↔ u = v := by rw [List.forall₂_eq_eq_eq]

theorem exact_node (cs n : Nat) (a b : Node T C) (ha : ProperNode a) (hb : ProperNode b) (hn : readRows cs a.inner = some n) :
    ∃ r, compareNode none cs a b = some r ∧ (a = b → r = true) ∧
      (¬ n ∣ a.rows.length ∨ (a.rows ≠ [] ∧ b.rows.length ≤ a.rows.length) → r = true → a = b) := by
  obtain ⟨r, h1, h2, h3⟩ := compareNode_spec none cs n a b _ Eq hn (exact_slice a b ha hb)
  refine ⟨r, h1, ?_, fun hH hr => ?_⟩
  · rintro rfl
    exact h2 ⟨⟨rfl, rfl, rfl⟩, (forall₂_eq_iff _ _).mpr rfl⟩
  · obtain ⟨⟨g1, g2, g3⟩, g4⟩ := h3 hH hr
    exact Node.ext' g1 g2 g3 ((forall₂_eq_iff _ _).mp g4)

/-- Columns in the comparison with a tolerance. -/
theorem columns_close (close : C → C → Bool) (n : Nat) (u v : List (List C)) (hl : u.length = v.length) (hu : ∀ r ∈ u, r.length = n) (hv : ∀ r ∈ v, r.length = n) :
    (∀ i, i < n → allclose close false (u.map fun r => r[i]?) (v.map fun r => r[i]?) = some true) ↔ List.Forall₂ (List.Forall₂ fun x y => close x y = true) u v := by
  induction u generalizing v with
  | nil =>
    cases v with
    | nil => simp [allclose]
    | cons y v => simp at hl
  | cons x u ih =>
    cases v with
    | nil => simp at hl
    | cons y v =>
      have hx := hu x (List.mem_cons_self ..)
      have hy := hv y (List.mem_cons_self ..)
      rw [List.forall₂_cons, ← ih v (by simpa using hl) (fun r hr => hu r (List.mem_cons_of_mem _ hr)) (fun r hr => hv r (List.mem_cons_of_mem _ hr))]
      have hsplit : ∀ i, i < n → (allclose close false ((x :: u).map fun r => r[i]?) ((y :: v).map fun r => r[i]?) = some true ↔
          (∃ p q, x[i]? = some p ∧ y[i]? = some q ∧ close p q = true) ∧ allclose close false (u.map fun r => r[i]?) (v.map fun r => r[i]?) = some true) := by
        intro i hi
        have h1 := List.getElem?_eq_getElem (l := x) (i := i) (by omega)
        have h2 := List.getElem?_eq_getElem (l := y) (i := i) (by omega)
        simp [allclose, h1, h2]
      constructor
      · intro h
        refine ⟨?_, fun i hi => ((hsplit i hi).mp (h i hi)).2⟩
        rw [forall₂_iff_getElem?]
        intro i
        by_cases hi : i < n
        · obtain ⟨⟨p, q, h1, h2, h3⟩, -⟩ := (hsplit i hi).mp (h i hi)
          rw [h1, h2]
          exact Option.Rel.some h3
        · rw [List.getElem?_eq_none (by omega), List.getElem?_eq_none (by omega)]
          exact Option.Rel.none
      · rintro ⟨h1, h2⟩ i hi
        rw [hsplit i hi]
        refine ⟨⟨x[i]'(by omega), y[i]'(by omega), List.getElem?_eq_getElem _, List.getElem?_eq_getElem _, ?_⟩, h2 i hi⟩
        have h3 := (forall₂_iff_getElem? _ _ _).mp h1 i
        rw [List.getElem?_eq_getElem (by omega), List.getElem?_eq_getElem (by omega)] at h3
        cases h3 with
        | some h => exact h

theorem closeColumns_spec (close : C → C → Bool) (a b : Node T C) (hs : ∀ i, isStringType (a.dtype i) = false) (l : List Nat) :
    ∃ r, closeColumns close a b l = some r ∧ (r = true ↔ ∀ i ∈ l, a.dtype i = b.dtype i ∧ allclose close false (a.column i) (b.column i) = some true) := by
  induction l with
  | nil => exact ⟨true, rfl, by simp⟩
  | cons i is ih =>
    unfold closeColumns
    by_cases h1 : a.dtype i = b.dtype i
    · rw [if_neg (by simpa using h1), if_neg (by rw [hs]; simp)]
      have : ∃ c, allclose close false (a.column i) (b.column i) = some c := ⟨_, rfl⟩
      obtain ⟨c, hc⟩ := this
      rw [hc]
      cases c with
      | false => exact ⟨false, rfl, by simp [hc]⟩
      | true =>
        obtain ⟨r, h2, h3⟩ := ih
        exact ⟨r, h2, by simp [hc, h1, h3]⟩
    · rw [if_pos (by simpa using h1)]
      exact ⟨false, rfl, by simp [h1]⟩

theorem noString_dtype (a : Node T C) (h : NoStrings a) (i : Nat) : isStringType (a.dtype i) = false := by
  unfold isStringType Node.dtype
  cases ht : a.types[i]? with
  | none => rfl
  | some t => exact h t (List.mem_of_getElem? ht)

/-- Slices in the comparison with a tolerance. -/
theorem nanClose_spec (close : C → C → Bool) (a b : Node T C) (ha : ProperNode a) (hb : ProperNode b) (hs : NoStrings a) :
    ∃ r, nanClose close a b = some r ∧ (r = true ↔ NodesRelated (fun x y => close x y = true) a b) := by
  have hs' := noString_dtype a hs
  unfold nanClose NodesRelated
  by_cases h1 : a.shape = b.shape
  · rw [if_neg (by simpa using h1)]
    have h1' : a.rows.length = b.rows.length ∧ a.inner = b.inner := by
      unfold Node.shape at h1
      exact List.cons_eq_cons.mp h1
    cases hna : a.names with
    | none =>
      cases hnb : b.names with
      | some ns => exact ⟨false, by simp, by simp⟩
      | none =>
        unfold ProperNode at ha hb
        rw [hna] at ha
        rw [hnb] at hb
        simp only at ha hb
        by_cases hd : a.dtype 0 = b.dtype 0
        · rw [if_neg (by simp), if_pos (by simp), if_neg (by simpa using hd), hs']
          have hcol := columns_close close 1 a.rows b.rows h1'.1 ha.2 hb.2
          refine ⟨_, rfl, ?_⟩
          have htypes : a.types = b.types := by
            unfold Node.dtype at hd
            match hta : a.types, htb : b.types, ha.1, hb.1 with
            | [x], [y], _, _ =>
              rw [hta, htb] at hd
              simpa using hd
          constructor
          · intro h
            refine ⟨rfl, h1'.2, htypes, hcol.mp fun i hi => ?_⟩
            obtain rfl : i = 0 := by omega
            exact congrArg some h
          · rintro ⟨-, -, -, h⟩
            exact Option.some.inj (hcol.mpr h 0 (by omega))
        · rw [if_neg (by simp), if_pos (by simp), if_pos (by simpa using hd)]
          refine ⟨false, rfl, ?_⟩
          simp only [Bool.false_eq_true, false_iff]
          rintro ⟨-, -, h, -⟩
          exact hd (by unfold Node.dtype; rw [h])
    | some ns =>
      cases hnb : b.names with
      | none => exact ⟨false, by simp, by simp⟩
      | some ms =>
        unfold ProperNode at ha hb
        rw [hna] at ha
        rw [hnb] at hb
        simp only at ha hb
        rw [if_neg (by simp), if_neg (by simp)]
        by_cases hnm : ns = ms
        · subst hnm
          rw [if_neg (by simp)]
          obtain ⟨r, h2, h3⟩ := closeColumns_spec close a b hs' (List.range ns.length)
          refine ⟨r, h2, h3.trans ?_⟩
          have hcol := columns_close close ns.length a.rows b.rows h1'.1 ha.2.2 hb.2.2
          constructor
          · intro h
            refine ⟨rfl, h1'.2, ?_, hcol.mp fun i hi => (h i (List.mem_range.mpr hi)).2⟩
            apply List.ext_getElem?
            intro i
            by_cases hi : i < ns.length
            · exact (h i (List.mem_range.mpr hi)).1
            · rw [List.getElem?_eq_none (by omega), List.getElem?_eq_none (by omega)]
          · rintro ⟨-, -, h4, h5⟩ i hi
            exact ⟨by unfold Node.dtype; rw [h4], hcol.mpr h5 i (List.mem_range.mp hi)⟩
        · rw [if_pos (by simpa using hnm)]
          exact ⟨false, rfl, by simp [hnm]⟩
  · rw [if_pos (by simpa using h1)]
    refine ⟨false, rfl, ?_⟩
    simp only [Bool.false_eq_true, false_iff]
    rintro ⟨-, h2, -, h3⟩
    apply h1
    unfold Node.shape
    rw [h2, h3.length_eq]

theorem close_node (close : C → C → Bool) (cs n : Nat) (a b : Node T C) (ha : ProperNode a) (hb : ProperNode b) (hs : NoStrings a) (hn : readRows cs a.inner = some n) :
    ∃ r, compareNode (some close) cs a b = some r ∧ (NodesRelated (fun x y => close x y = true) a b → r = true) ∧
      (¬ n ∣ a.rows.length ∨ (a.rows ≠ [] ∧ b.rows.length ≤ a.rows.length) → r = true → NodesRelated (fun x y => close x y = true) a b) := by
  obtain ⟨r, h1, h2, h3⟩ := compareNode_spec (some close) cs n a b (a.names = b.names ∧ a.inner = b.inner ∧ a.types = b.types) (List.Forall₂ fun x y => close x y = true) hn
    (fun s t => by
      obtain ⟨r, g1, g2⟩ := nanClose_spec close (a.read s t) (b.read s t) (proper_read a ha s t) (proper_read b hb s t) hs
      refine ⟨r, g1, g2.trans ?_⟩
      unfold NodesRelated
      exact ⟨fun ⟨x1, x2, x3, x4⟩ => ⟨⟨x1, x2, x3⟩, x4⟩, fun ⟨⟨x1, x2, x3⟩, x4⟩ => ⟨x1, x2, x3, x4⟩⟩)
  refine ⟨r, h1, ?_, fun hH hr => ?_⟩
  · rintro ⟨x1, x2, x3, x4⟩
    exact h2 ⟨⟨x1, x2, x3⟩, x4⟩
  · obtain ⟨⟨x1, x2, x3⟩, x4⟩ := h3 hH hr
    exact ⟨x1, x2, x3, x4⟩

theorem node_isSome (f : File T C) (p : String) : (∃ a, f.node p = some a) ↔ p ∈ f.map Prod.fst := by
  unfold File.node
  cases hf : f.find? fun x => x.1 = p with
  | none =>
    rw [List.find?_eq_none] at hf
    simp only [Option.map_none, reduceCtorEq, exists_false, List.mem_map, false_iff, not_exists, not_and]
    intro x hx he
    exact hf x hx (by simpa using he)
  | some x =>
    have h1 := List.find?_some hf
    have h2 := List.mem_of_find?_eq_some hf
    simp only [Option.map_some, Option.some.injEq, exists_eq', true_iff]
    exact List.mem_map.mpr ⟨x, h2, by simpa using h1⟩

theorem node_mem (f : File T C) (p : String) (a : Node T C) (h : f.node p = some a) : (p, a) ∈ f := by
  unfold File.node at h
  cases hf : f.find? fun x => x.1 = p with
  | none => rw [hf] at h; cases h
  | some x =>
    rw [hf] at h
    have h1 := List.find?_some hf
    have h2 := List.mem_of_find?_eq_some hf
    have h3 : x.2 = a := by simpa using h
    have h4 : x.1 = p := by simpa using h1
    rw [← h3, ← h4]
    exact h2

theorem mem_paths (f : File T C) (ignore : List String) (p : String) : p ∈ paths f ignore ↔ p ∉ ignore ∧ ∃ a, f.node p = some a := by
  unfold paths
  rw [List.mem_filter, node_isSome, decide_eq_true_eq]
  exact and_comm

theorem compareNodes_spec (close : Option (C → C → Bool)) (cs : Nat) (f g : File T C) (ps : List String) (bad : String → Prop)
    (h : ∀ p ∈ ps, ∃ a b r, f.node p = some a ∧ g.node p = some b ∧ compareNode close cs a b = some r ∧ (r = false ↔ bad p)) :
    ∃ d, compareNodes close cs f g ps = some d ∧ ∀ p, p ∈ d ↔ p ∈ ps ∧ bad p := by
  induction ps with
  | nil => exact ⟨[], rfl, by simp⟩
  | cons q ps ih =>
    obtain ⟨a, b, r, h1, h2, h3, h4⟩ := h q (List.mem_cons_self ..)
    obtain ⟨d, h5, h6⟩ := ih fun p hp => h p (List.mem_cons_of_mem _ hp)
    unfold compareNodes
    rw [h1, h2]
    dsimp only
    rw [h3, h5]
    refine ⟨if r = true then d else q :: d, rfl, fun p => ?_⟩
    cases r with
    | true =>
      have hq : ¬ bad q := fun hb => by cases h4.mpr hb
      simp only [if_true, h6, List.mem_cons]
      constructor
      · rintro ⟨x, y⟩; exact ⟨Or.inr x, y⟩
      · rintro ⟨rfl | x, y⟩
        · exact absurd y hq
        · exact ⟨x, y⟩
    | false =>
      have hq : bad q := h4.mp rfl
      simp only [Bool.false_eq_true, if_false, h6, List.mem_cons]
      constructor
      · rintro (rfl | ⟨x, y⟩)
        · exact ⟨Or.inl rfl, hq⟩
        · exact ⟨Or.inr x, y⟩
      · rintro ⟨rfl | x, y⟩
        · exact Or.inl rfl
        · exact Or.inr ⟨x, y⟩

/-- The whole comparison from the comparison of nodes: `bad p` says that the nodes with path `p` are reported as different. -/
theorem compareFiles_spec (close : Option (C → C → Bool)) (cs : Nat) (ignore : List String) (f g : File T C) (bad : String → Prop)
    (h : ∀ p a b, p ∉ ignore → f.node p = some a → g.node p = some b → ∃ r, compareNode close cs a b = some r ∧ (r = false ↔ bad p)) :
    ∃ r, compareFiles close cs none ignore f g = some r ∧
      (r.passed = true ↔ ∀ p, p ∉ ignore → ((∃ a, f.node p = some a) ↔ ∃ b, g.node p = some b) ∧ ((∃ a, f.node p = some a) → ¬ bad p)) ∧
      (∀ p, p ∈ r.differ ↔ p ∉ ignore ∧ (∃ a, f.node p = some a) ∧ (∃ b, g.node p = some b) ∧ bad p) := by
  obtain ⟨d, h1, h2⟩ := compareNodes_spec close cs f g ((paths f ignore).filter fun p => decide (p ∈ paths g ignore)) bad (fun p hp => by
    rw [List.mem_filter, decide_eq_true_eq, mem_paths, mem_paths] at hp
    obtain ⟨⟨g1, a, ha⟩, -, b, hb⟩ := hp
    obtain ⟨r, h3, h4⟩ := h p a b g1 ha hb
    exact ⟨a, b, r, ha, hb, h3, h4⟩)
  have hd : ∀ p, p ∈ d ↔ p ∉ ignore ∧ (∃ a, f.node p = some a) ∧ (∃ b, g.node p = some b) ∧ bad p := by
    intro p
    rw [h2, List.mem_filter, decide_eq_true_eq, mem_paths, mem_paths]
    tauto
  unfold compareFiles
  dsimp only
  rw [h1]
  refine ⟨_, rfl, ?_, hd⟩
  simp only [Bool.and_eq_true, List.isEmpty_iff, List.filter_eq_nil_iff, decide_eq_true_eq, not_not, List.eq_nil_iff_forall_not_mem (l := d)]
  constructor
  · rintro ⟨⟨g1, g2⟩, g3⟩ p hp
    refine ⟨⟨fun hf => ?_, fun hg => ?_⟩, fun hf hb => ?_⟩
    · exact ((mem_paths g ignore p).mp (g1 p ((mem_paths f ignore p).mpr ⟨hp, hf⟩))).2
    · exact ((mem_paths f ignore p).mp (g2 p ((mem_paths g ignore p).mpr ⟨hp, hg⟩))).2
    · exact g3 p ((hd p).mpr ⟨hp, hf, ((mem_paths g ignore p).mp (g1 p ((mem_paths f ignore p).mpr ⟨hp, hf⟩))).2, hb⟩)
  · intro hall
    refine ⟨⟨fun p hp => ?_, fun p hp => ?_⟩, fun p hp => ?_⟩
    · obtain ⟨g1, g2⟩ := (mem_paths f ignore p).mp hp
      exact (mem_paths g ignore p).mpr ⟨g1, (hall p g1).1.mp g2⟩
    · obtain ⟨g1, g2⟩ := (mem_paths g ignore p).mp hp
      exact (mem_paths f ignore p).mpr ⟨g1, (hall p g1).1.mpr g2⟩
    · obtain ⟨g1, g2, -, g4⟩ := (hd p).mp hp
      exact (hall p g1).2 g2 g4

/-- The comparison with a list of names. -/
theorem compareFiles_names_spec (close : Option (C → C → Bool)) (cs : Nat) (names ignore : List String) (f g : File T C) (bad : String → Prop)
    (h : ∀ p a b, p ∉ ignore → f.node p = some a → g.node p = some b → ∃ r, compareNode close cs a b = some r ∧ (r = false ↔ bad p)) :
    ∃ r, compareFiles close cs (some names) ignore f g = some r ∧
      (r.passed = true ↔ ∀ s ∈ names, withSlash s ∉ ignore ∧ (∃ a, f.node (withSlash s) = some a) ∧ (∃ b, g.node (withSlash s) = some b) ∧ ¬ bad (withSlash s)) := by
  obtain ⟨d, h1, h2⟩ := compareNodes_spec close cs f g (((paths f ignore).filter fun p => decide (p ∈ paths g ignore)).filter fun p => decide (p ∈ names.map withSlash)) bad (fun p hp => by
    rw [List.mem_filter, List.mem_filter, decide_eq_true_eq, mem_paths, mem_paths] at hp
    obtain ⟨⟨⟨g1, a, ha⟩, -, b, hb⟩, -⟩ := hp
    obtain ⟨r, h3, h4⟩ := h p a b g1 ha hb
    exact ⟨a, b, r, ha, hb, h3, h4⟩)
  have hd : ∀ p, p ∈ d ↔ (p ∉ ignore ∧ (∃ a, f.node p = some a) ∧ (∃ b, g.node p = some b)) ∧ p ∈ names.map withSlash ∧ bad p := by
    intro p
    rw [h2, List.mem_filter, List.mem_filter, decide_eq_true_eq, decide_eq_true_eq, mem_paths, mem_paths]
    tauto
  unfold compareFiles
  dsimp only
  rw [h1]
  refine ⟨_, rfl, ?_⟩
  simp only [Bool.and_eq_true, List.isEmpty_iff, List.filter_eq_nil_iff, decide_eq_true_eq, not_not, List.eq_nil_iff_forall_not_mem (l := d)]
  constructor
  · rintro ⟨⟨g1, g2⟩, g3⟩ s hs
    have hm : withSlash s ∈ names.map withSlash := List.mem_map_of_mem hs
    obtain ⟨x1, x2⟩ := (mem_paths f ignore _).mp (g1 _ hm)
    obtain ⟨-, x3⟩ := (mem_paths g ignore _).mp (g2 _ hm)
    exact ⟨x1, x2, x3, fun hb => g3 _ ((hd _).mpr ⟨⟨x1, x2, x3⟩, hm, hb⟩)⟩
  · intro hall
    refine ⟨⟨fun p hp => ?_, fun p hp => ?_⟩, fun p hp => ?_⟩
    · obtain ⟨s, hs, rfl⟩ := List.mem_map.mp hp
      exact (mem_paths f ignore _).mpr ⟨(hall s hs).1, (hall s hs).2.1⟩
    · obtain ⟨s, hs, rfl⟩ := List.mem_map.mp hp
      exact (mem_paths g ignore _).mpr ⟨(hall s hs).1, (hall s hs).2.2.1⟩
    · obtain ⟨-, x2, x3⟩ := (hd p).mp hp
      obtain ⟨s, hs, rfl⟩ := List.mem_map.mp x2
      exact (hall s hs).2.2.2 x3

end BTA.CompareFiles
