import Verif.Spec.Converters
import Mathlib.Data.List.Induction
import Mathlib.Data.Nat.Digits.Lemmas
import Mathlib.Tactic.Linarith
/-
Lemmas about the converters.
-/
namespace BTA.Converters
open Spec

variable {R : Type}

theorem reads_nil (c : Nat) (hc : 0 < c) : reads c ([] : List R) = [] := by
  unfold reads
  rw [List.length_nil, Nat.zero_add, Nat.div_eq_of_lt (by omega)]
  rfl

theorem reads_cons (c : Nat) (hc : 0 < c) (rows : List R) (h : rows ≠ []) : reads c rows = rows.take c :: reads c (rows.drop c) := by
  have hl : 0 < rows.length := List.length_pos_iff.mpr h
  have hn : (rows.length + (c - 1)) / c = ((rows.drop c).length + (c - 1)) / c + 1 := by
    rw [List.length_drop]
    by_cases h1 : rows.length < c
    · have h2 : rows.length - c = 0 := by omega
      rw [h2, Nat.zero_add, Nat.div_eq_of_lt (by omega : c - 1 < c)]
      rw [show rows.length + (c - 1) = (rows.length - 1) + c by omega, Nat.add_div_right _ hc, Nat.div_eq_of_lt (by omega)]
    · rw [show rows.length + (c - 1) = (rows.length - c + (c - 1)) + c by omega, Nat.add_div_right _ hc]
  unfold reads
  rw [hn, List.range_succ_eq_map, List.map_cons, List.map_map]
  congr 1
  · rw [Nat.zero_mul, List.drop_zero]
  · refine List.map_congr_left fun k _ => ?_
    show (rows.drop ((k + 1) * c)).take c = _
    rw [List.drop_drop]
    congr 2
    ring

theorem decreases_append (a : List Int) (x : Int) (b : List Int) :
    decreases (a ++ x :: b) = (decreases (a ++ [x]) || decreases (x :: b)) := by
  induction a with
  | nil => simp [decreases]
  | cons y a ih =>
    cases a with
    | nil => simp [decreases]
    | cons z a =>
      rw [List.cons_append, List.cons_append] at ih ⊢
      simp only [List.cons_append, decreases] at ih ⊢
      rw [ih, Bool.or_assoc]

theorem lastOf_concat {V : Type} (l : List V) (x : V) : lastOf (l ++ [x]) = [x] := by
  unfold lastOf
  simp

/-- One chunk and the others. -/
theorem decreases_chunk (e : Int) (a b : List Int) (ha : a ≠ []) :
    decreases (e :: (a ++ b)) = (decreases (e :: a) || decreases (lastOf a ++ b)) := by
  obtain ⟨l, x, rfl⟩ := List.eq_nil_or_concat a |>.resolve_left ha
  rw [List.concat_eq_append, lastOf_concat]
  have := decreases_append (e :: l) x b
  simpa [List.append_assoc] using this

theorem lastOf_single {V : Type} (a : List V) (ha : a ≠ []) : ∃ x, lastOf a = [x] := by
  obtain ⟨l, x, rfl⟩ := List.eq_nil_or_concat a |>.resolve_left ha
  exact ⟨x, by rw [List.concat_eq_append, lastOf_concat]⟩

/-- A function that appends selected rows to the files. -/
def Writes (write : List R → Store → Store) (p : Name → R → Bool) (g : R → Hit) : Prop :=
  ∀ c s n, write c s n = (s n).map (· ++ (c.filter (p n)).map g)

/-- All rows are written if the event numbers do not decrease. -/
theorem loop_true {event : R → Int} {write : List R → Store → Store} {p : Name → R → Bool} {g : R → Hit} (hw : Writes write p g) (c : Nat)
    (hc : 0 < c) : ∀ (m : Nat) (rows : List R) (e : Int) (s : Store), rows.length ≤ m → decreases (e :: rows.map event) = false →
      (loop event write (reads c rows) [e] s).2 = true ∧
        ∀ n, (loop event write (reads c rows) [e] s).1 n = (s n).map (· ++ (rows.filter (p n)).map g) := by
  intro m
  induction m with
  | zero =>
    intro rows e s hm hd
    have : rows = [] := List.length_eq_zero_iff.mp (by omega)
    subst this
    rw [reads_nil c hc]
    refine ⟨rfl, fun n => ?_⟩
    simp [loop]
  | succ m ih =>
    intro rows e s hm hd
    by_cases h : rows = []
    · subst h
      rw [reads_nil c hc]
      refine ⟨rfl, fun n => ?_⟩
      simp [loop]
    have hne : (rows.take c).map event ≠ [] := by
      rw [ne_eq, List.map_eq_nil_iff, List.take_eq_nil_iff, not_or]
      exact ⟨by omega, h⟩
    rw [reads_cons c hc rows h]
    have hd' := hd
    rw [show rows.map event = (rows.take c).map event ++ (rows.drop c).map event by
      rw [← List.map_append, List.take_append_drop], decreases_chunk _ _ _ hne, Bool.or_eq_false_iff] at hd'
    obtain ⟨x, hx⟩ := lastOf_single _ hne
    have h2 := hd'.2
    rw [hx] at h2
    have hl : (rows.drop c).length ≤ m := by
      rw [List.length_drop]
      omega
    obtain ⟨i1, i2⟩ := ih (rows.drop c) x (write (rows.take c) s) hl h2
    unfold loop
    rw [if_neg (by
      show ¬ decreases ([e] ++ _) = true
      rw [List.singleton_append, hd'.1]
      exact Bool.false_ne_true), hx]
    refine ⟨i1, fun n => ?_⟩
    rw [i2 n, hw, Option.map_map]
    congr 1
    funext l
    show l ++ _ ++ _ = _
    rw [List.append_assoc, ← List.map_append, ← List.filter_append, List.take_append_drop]

/-- If they decrease, the chunks before are written. -/
theorem loop_false {event : R → Int} {write : List R → Store → Store} {p : Name → R → Bool} {g : R → Hit} (hw : Writes write p g) (c : Nat)
    (hc : 0 < c) : ∀ (m : Nat) (rows : List R) (e : Int) (s : Store), rows.length ≤ m → decreases (e :: rows.map event) = true →
      (loop event write (reads c rows) [e] s).2 = false ∧ ∃ k, decreases (e :: (rows.take (k * c)).map event) = false ∧
        decreases (e :: (rows.take ((k + 1) * c)).map event) = true ∧
        ∀ n, (loop event write (reads c rows) [e] s).1 n = (s n).map (· ++ ((rows.take (k * c)).filter (p n)).map g) := by
  intro m
  induction m with
  | zero =>
    intro rows e s hm hd
    have : rows = [] := List.length_eq_zero_iff.mp (by omega)
    subst this
    exact absurd hd (by simp [decreases])
  | succ m ih =>
    intro rows e s hm hd
    have h : rows ≠ [] := by
      rintro rfl
      exact absurd hd (by simp [decreases])
    have hne : (rows.take c).map event ≠ [] := by
      rw [ne_eq, List.map_eq_nil_iff, List.take_eq_nil_iff, not_or]
      exact ⟨by omega, h⟩
    rw [reads_cons c hc rows h]
    unfold loop
    by_cases h1 : decreases (e :: (rows.take c).map event) = true
    · rw [if_pos (show decreases ([e] ++ _) = true from h1)]
      refine ⟨rfl, 0, ?_, ?_, fun n => ?_⟩
      · simp [decreases]
      · rw [Nat.zero_add, Nat.one_mul]
        exact h1
      · simp
    · rw [if_neg (show ¬ decreases ([e] ++ _) = true from h1)]
      have hd' := hd
      rw [show rows.map event = (rows.take c).map event ++ (rows.drop c).map event by
        rw [← List.map_append, List.take_append_drop], decreases_chunk _ _ _ hne, Bool.or_eq_true] at hd'
      obtain ⟨x, hx⟩ := lastOf_single _ hne
      have h2 := hd'.resolve_left h1
      rw [hx] at h2
      have hl : (rows.drop c).length ≤ m := by
        rw [List.length_drop]
        omega
      obtain ⟨i1, k, i2, i3, i4⟩ := ih (rows.drop c) x (write (rows.take c) s) hl h2
      rw [hx]
      have split (k : Nat) : rows.take ((k + 1) * c) = rows.take c ++ (rows.drop c).take (k * c) := by
        rw [show (k + 1) * c = c + k * c by ring, List.take_add]
      have dec (k : Nat) : decreases (e :: (rows.take ((k + 1) * c)).map event) =
          decreases (x :: ((rows.drop c).take (k * c)).map event) := by
        rw [split, List.map_append, decreases_chunk _ _ _ hne, hx, Bool.eq_false_iff.mpr h1, Bool.false_or]
        rfl
      refine ⟨i1, k + 1, by rw [dec]; exact i2, by rw [dec]; exact i3, fun n => ?_⟩
      rw [i4 n, hw, Option.map_map]
      congr 1
      funext l
      show l ++ _ ++ _ = _
      rw [List.append_assoc, ← List.map_append, ← List.filter_append, split]

/-- Opening the files succeeds for different names only; the files are empty then. -/
theorem openFiles_ok : ∀ (names opened : List Name) (s : Store), (openFiles opened names s).2 = true ↔
    names.Nodup ∧ ∀ n ∈ names, n ∉ opened := by
  intro names
  induction names with
  | nil => intro opened s; simp [openFiles]
  | cons n ns ih =>
    intro opened s
    unfold openFiles
    split_ifs with h
    · simp [h]
    · rw [ih, List.nodup_cons]
      simp only [List.mem_cons, forall_eq_or_imp, not_or]
      constructor
      · rintro ⟨h1, h2⟩
        exact ⟨⟨fun h3 => (h2 n h3).1 rfl, h1⟩, h, fun m hm => (h2 m hm).2⟩
      · rintro ⟨⟨h1, h2⟩, h3, h4⟩
        exact ⟨h2, fun m hm => ⟨fun e => h1 (e ▸ hm), h4 m hm⟩⟩

theorem openFiles_store : ∀ (names opened : List Name) (s : Store), (openFiles opened names s).2 = true → ∀ n,
    (openFiles opened names s).1 n = if n ∈ names then some [] else s n := by
  intro names
  induction names with
  | nil => intro opened s _ n; simp [openFiles]
  | cons m ns ih =>
    intro opened s h n
    unfold openFiles at h ⊢
    split_ifs at h ⊢ with h1 h2
    · rw [ih _ _ h]
      split_ifs with h3
      · rfl
      · have : n = m := by simpa [h3] using h2
        simp [Store.create, this]
    · rw [ih _ _ h]
      rw [List.mem_cons, not_or] at h2
      rw [if_neg h2.2]
      simp [Store.create, h2.1]

theorem wrap64_of_range {x : Int} (h1 : -2 ^ 63 ≤ x) (h2 : x < 2 ^ 63) : wrap64 x = x := by
  unfold wrap64
  rw [Int.emod_eq_of_lt (by omega) (by omega)]
  ring

/-- Without overflow, the check is the order of the numbers. -/
theorem decreases_iff (l : List Int) (h : InRange l) : decreases l = false ↔ l.Pairwise (· ≤ ·) := by
  induction l with
  | nil => simp [decreases]
  | cons a l ih =>
    cases l with
    | nil => simp [decreases]
    | cons b l =>
      have h2 : InRange (b :: l) := fun e he => h e (List.mem_cons_of_mem _ he)
      have ha := h a (List.mem_cons_self ..)
      have hb := h2 b (List.mem_cons_self ..)
      simp only [decreases, Bool.or_eq_false_iff, decide_eq_false_iff_not]
      rw [ih h2, wrap64_of_range (by omega) (by omega), List.pairwise_cons (a := a)]
      constructor
      · rintro ⟨h3, h4⟩
        refine ⟨fun c hc => ?_, h4⟩
        rcases List.mem_cons.mp hc with rfl | hc
        · omega
        · have := (List.pairwise_cons.mp h4).1 c hc
          omega
      · rintro ⟨h3, h4⟩
        have := h3 b (List.mem_cons_self ..)
        exact ⟨by omega, h4⟩

theorem fromZero_iff (l : List Int) : FromZero l ↔ (0 :: l).Pairwise (· ≤ ·) := by
  unfold FromZero
  rw [List.pairwise_cons, List.pairwise_iff_getElem]
  refine and_congr_right fun _ => ?_
  constructor
  · intro h i j hi hj hij
    exact h i j _ _ (by omega) (List.getElem?_eq_getElem hi) (List.getElem?_eq_getElem hj)
  · intro h i j a b hij ha hb
    obtain ⟨hi, rfl⟩ := List.getElem?_eq_some_iff.mp ha
    obtain ⟨hj, rfl⟩ := List.getElem?_eq_some_iff.mp hb
    rcases Nat.lt_or_eq_of_le hij with h1 | rfl
    · exact h i j hi hj h1
    · exact le_refl _

theorem decreases_fromZero (l : List Int) (h : InRange l) : decreases (0 :: l) = false ↔ FromZero l := by
  rw [decreases_iff _ (by
    intro e he
    rcases List.mem_cons.mp he with rfl | he
    · constructor <;> norm_num
    · exact h e he), fromZero_iff]

/-- The outcome of `format`. -/
theorem format_ok {event : R → Int} {write : List R → Store → Store} {p : Name → R → Bool} {g : R → Hit} (hw : Writes write p g)
    (rows : List R) (input : Name) (names : List Name) (chunk : Nat) (s : Store) (r : List Name)
    (h : (format event write rows input names chunk s).result = .ok r) :
    r = names ∧ Writable input names ∧ 0 < chunk ∧ decreases (0 :: rows.map event) = false ∧
      ∀ n, (format event write rows input names chunk s).store n =
        if n ∈ names then some ((rows.filter (p n)).map g) else (s n).map (· ++ (rows.filter (p n)).map g) := by
  unfold format at h ⊢
  dsimp only at h ⊢
  by_cases h1 : (openFiles [input] names s).2 = true
  · rw [h1] at h ⊢
    simp only [Bool.not_true, Bool.false_eq_true, if_false] at h ⊢
    split_ifs at h ⊢ with h2 h3
    · have hc : 0 < chunk := by omega
      have h4 : decreases (0 :: rows.map event) = false := by
        by_contra h5
        rw [Bool.not_eq_false] at h5
        rw [(loop_false hw chunk hc rows.length rows 0 _ (le_refl _) h5).1] at h3
        cases h3
      obtain ⟨o1, o2⟩ := (openFiles_ok names [input] s).mp h1
      refine ⟨(Except.ok.inj h).symm, ⟨o1, fun h5 => o2 _ h5 (List.mem_singleton.mpr rfl)⟩, hc, h4, fun n => ?_⟩
      dsimp only
      rw [(loop_true hw chunk hc rows.length rows 0 _ (le_refl _) h4).2 n, openFiles_store _ _ _ h1]
      split_ifs <;> simp
  · rw [Bool.not_eq_true] at h1
    rw [h1] at h
    cases h

theorem format_iff {event : R → Int} {write : List R → Store → Store} {p : Name → R → Bool} {g : R → Hit} (hw : Writes write p g)
    (rows : List R) (input : Name) (names : List Name) (chunk : Nat) (s : Store) :
    (format event write rows input names chunk s).result = .ok names ↔
      Writable input names ∧ 0 < chunk ∧ decreases (0 :: rows.map event) = false := by
  constructor
  · intro h
    obtain ⟨_, h1, h2, h3, _⟩ := format_ok hw rows input names chunk s names h
    exact ⟨h1, h2, h3⟩
  · rintro ⟨⟨h1, h2⟩, h3, h4⟩
    have h5 : (openFiles [input] names s).2 = true :=
      (openFiles_ok names [input] s).mpr ⟨h1, fun n hn e => h2 (by rw [← List.mem_singleton.mp e]; exact hn)⟩
    unfold format
    dsimp only
    rw [h5, (loop_true hw chunk h3 rows.length rows 0 _ (le_refl _) h4).1]
    simp [Nat.ne_of_gt h3]

/-- The files after the exception about the event numbers. -/
theorem format_refused {event : R → Int} {write : List R → Store → Store} {p : Name → R → Bool} {g : R → Hit} (hw : Writes write p g)
    (rows : List R) (input : Name) (names : List Name) (chunk : Nat) (s : Store)
    (h : (format event write rows input names chunk s).result = .error .eventNumber) :
    ∃ k, decreases (0 :: (rows.take (k * chunk)).map event) = false ∧ decreases (0 :: (rows.take ((k + 1) * chunk)).map event) = true ∧
      ∀ n ∈ names, (format event write rows input names chunk s).store n = some (((rows.take (k * chunk)).filter (p n)).map g) := by
  unfold format at h ⊢
  dsimp only at h ⊢
  by_cases h1 : (openFiles [input] names s).2 = true
  · rw [h1] at h ⊢
    simp only [Bool.not_true, Bool.false_eq_true, if_false] at h ⊢
    split_ifs at h ⊢ with h2 h3
    · cases h
    have hc : 0 < chunk := by omega
    have h4 : decreases (0 :: rows.map event) = true := by
      by_contra h5
      rw [Bool.not_eq_true] at h5
      exact h3 (loop_true hw chunk hc rows.length rows 0 _ (le_refl _) h5).1
    obtain ⟨_, k, i2, i3, i4⟩ := loop_false hw chunk hc rows.length rows 0 (openFiles [input] names s).1 (le_refl _) h4
    refine ⟨k, i2, i3, fun n hn => ?_⟩
    dsimp only
    rw [i4 n, openFiles_store _ _ _ h1, if_pos hn]
    simp
  · rw [Bool.not_eq_true] at h1
    rw [h1] at h
    cases h

/-- The hits of the planes are written to the files of the planes. -/
theorem m26_writes (planes : List (Nat × Name)) (hn : (planes.map Prod.snd).Nodup) :
    Writes (m26Write planes) (fun n h => planes.any fun q => decide (q.2 = n) && decide (h.plane = q.1)) m26Format := by
  unfold Writes m26Write
  intro c s n
  induction planes generalizing s with
  | nil => simp
  | cons q qs ih =>
    rw [List.map_cons, List.nodup_cons] at hn
    rw [List.foldl_cons, ih hn.2]
    by_cases h : q.2 = n
    · have h0 : ∀ h : M26Hit, (qs.any fun q => decide (q.2 = n) && decide (h.plane = q.1)) = false := by
        intro h2
        rw [List.any_eq_false]
        intro q' hq'
        have : q'.2 ≠ n := fun e => hn.1 (List.mem_map.mpr ⟨q', hq', by rw [e, h]⟩)
        simp [this]
      simp only [h0, List.any_cons, Bool.or_false, h, decide_true, Bool.true_and, Store.append, if_true]
      simp [Function.comp_def]
    · have : n ≠ q.2 := fun e => h e.symm
      simp [Store.append, h, this]

theorem fei4_writes (name : Name) :
    Writes (fun (c : List Fei4Hit) s => Store.append s name (c.map fei4Format)) (fun n _ => decide (n = name)) fei4Format := by
  unfold Writes
  intro c s n
  by_cases h : n = name <;> simp [Store.append, h]

theorem any_zip (ids : List Nat) (names : List Name) (hn : names.Nodup) (k : Nat) (id : Nat) (n : Name) (h1 : ids[k]? = some id)
    (h2 : names[k]? = some n) (pl : Nat) :
    ((ids.zip names).any fun q => decide (q.2 = n) && decide (pl = q.1)) = (pl == id) := by
  rw [Bool.eq_iff_iff, List.any_eq_true, beq_iff_eq]
  constructor
  · rintro ⟨q, hq, h3⟩
    rw [Bool.and_eq_true, decide_eq_true_eq, decide_eq_true_eq] at h3
    obtain ⟨j, hj⟩ := List.mem_iff_getElem?.mp hq
    rw [List.getElem?_zip_eq_some] at hj
    rw [h3.1] at hj
    obtain ⟨hk, e1⟩ := List.getElem?_eq_some_iff.mp h2
    obtain ⟨hj', e2⟩ := List.getElem?_eq_some_iff.mp hj.2
    have : j = k := (List.Nodup.getElem_inj_iff hn).mp (e2.trans e1.symm)
    subst this
    rw [h1] at hj
    rw [h3.2, ← Option.some.inj hj.1]
  · rintro rfl
    exact ⟨(pl, n), List.mem_iff_getElem?.mpr ⟨k, List.getElem?_zip_eq_some.mpr ⟨h1, h2⟩⟩, by simp⟩

theorem zip_snd_nodup (ids : List Nat) (names : List Name) (hl : names.length = ids.length) (hn : names.Nodup) :
    ((ids.zip names).map Prod.snd).Nodup := by
  rw [List.map_snd_zip (by omega)]
  exact hn

/-- What is left of the name. -/
theorem splitRoot_cases (p : Name) : splitRoot p = p ∨ ∃ ext, p = splitRoot p ++ '.' :: ext := by
  unfold splitRoot
  split
  · next r h =>
    split_ifs
    · right
      refine ⟨(p.reverse.takeWhile fun c => c != '.' && c != '/').reverse, ?_⟩
      have := List.takeWhile_append_dropWhile (p := fun c => c != '.' && c != '/') (l := p.reverse)
      rw [h] at this
      have := congrArg List.reverse this
      rw [List.reverse_reverse] at this
      refine this.symm.trans ?_
      simp
    · exact Or.inl rfl
  · exact Or.inl rfl

/-- A name made of the root and a suffix that does not begin with a dot is not the name itself. -/
theorem root_suffix_ne (p : Name) (c : Char) (suffix : List Char) (hc : c ≠ '.') : splitRoot p ++ c :: suffix ≠ p := by
  intro h
  rcases splitRoot_cases p with h1 | ⟨ext, h1⟩
  · rw [h1] at h
    have := congrArg List.length h
    simp at this
  · have h2 := h.trans h1
    rw [List.append_cancel_left_eq] at h2
    exact hc (List.cons.inj h2).1

theorem m26Name_inj (input : Name) : Function.Injective (m26Name input) := by
  intro a b h
  unfold m26Name at h
  rw [List.append_cancel_left_eq, List.append_cancel_left_eq, List.append_cancel_right_eq] at h
  have := Nat.ofDigitChars_toDigits (b := 10) (n := a) (by norm_num) (by norm_num)
  rw [h, Nat.ofDigitChars_toDigits (by norm_num) (by norm_num)] at this
  exact this.symm

theorem generated_writable (input : Name) (ids : List Nat) (h : ids.Nodup) : Writable input (ids.map (m26Name input)) := by
  refine ⟨h.map (m26Name_inj input), fun h1 => ?_⟩
  obtain ⟨id, _, h2⟩ := List.mem_map.mp h1
  exact root_suffix_ne input '_' _ (by decide) h2

end BTA.Converters
