import Verif.Spec.EfficiencyArgs

namespace BTA.EffArgs

variable {V : Type}

theorem pairLength_iff (h : Heap V) (i : Item V) : pairLength h i = true ↔ (given h i).length = 2 := by
  cases i <;> simp [pairLength, Item.len, given]

/-- The list of the entries. -/
theorem expand_ok {n : Nat} {a : Arg V} {items : List (Item V)} (h : expand n a = .ok items) (hl : items.length = n) :
    ∀ k < n, items[k]? = entry a k := by
  intro k hk
  cases a with
  | none =>
    simp only [expand, Except.ok.injEq] at h
    subst h
    simp [entry, hk]
  | tuple v =>
    simp only [expand, Except.ok.injEq] at h
    subst h
    simp [entry, hk]
  | list its =>
    simp only [expand, Except.ok.injEq] at h
    subst h
    rfl
  | other => simp [expand] at h

theorem checkPairs_ok {h : Heap V} {n : Nat} {a : Arg V} {items : List (Item V)} (e : checkPairs h n a = .ok items) :
    expand n a = .ok items ∧ items ≠ [] ∧ items.length = n ∧ ∀ i ∈ items, (given h i).length = 2 := by
  unfold checkPairs at e
  cases hx : expand n a with
  | error e' => simp [hx] at e
  | ok its =>
    simp only [hx] at e
    split at e
    · simp at e
    · split at e
      · simp at e
      · split at e
        · rename_i h1 h2 h3
          simp only [Except.ok.injEq] at e
          subst e
          refine ⟨rfl, h1, by simpa using h2, ?_⟩
          intro i hi
          exact (pairLength_iff h i).mp (List.all_eq_true.mp h3 i hi)
        · simp at e

theorem checkPairs_error {h : Heap V} {n : Nat} {a : Arg V} {x : Err} (e : checkPairs h n a = .error x) : x = .value := by
  unfold checkPairs at e
  split at e
  · rename_i e' hx
    cases a <;> simp [expand] at hx
    subst hx; simp at e; exact e.symm
  · split at e
    · simp at e; exact e.symm
    · split at e
      · simp at e; exact e.symm
      · split at e
        · simp at e
        · simp at e; exact e.symm

theorem checkPairs_iff (h : Heap V) (n : Nat) (a : Arg V) : (∃ items, checkPairs h n a = .ok items) ↔ WellFormed h n a := by
  constructor
  · rintro ⟨items, e⟩
    obtain ⟨hx, hne, hl, hp⟩ := checkPairs_ok e
    have hn : 0 < n := by
      rw [← hl]; exact List.length_pos_iff.mpr hne
    refine ⟨hn, ?_, ?_, ?_⟩
    · rintro its rfl
      simp only [expand, Except.ok.injEq] at hx
      rw [hx]; exact hl
    · rintro rfl; simp [expand] at hx
    · intro k hk i hi
      rw [← expand_ok hx hl k hk] at hi
      exact hp i (List.mem_of_getElem? hi)
  · rintro ⟨hn, h1, h2, h3⟩
    have key : ∀ items, expand n a = .ok items → items.length = n → ∃ items, checkPairs h n a = .ok items := by
      intro items hx hl
      refine ⟨items, ?_⟩
      unfold checkPairs
      have hne : items ≠ [] := List.length_pos_iff.mp (by omega)
      have hall : items.all (pairLength h) = true := by
        rw [List.all_eq_true]
        intro i hi
        obtain ⟨k, hk, rfl⟩ := List.getElem_of_mem hi
        rw [pairLength_iff]
        refine h3 k (by omega) _ ?_
        rw [← expand_ok hx hl k (by omega)]
        exact List.getElem?_eq_getElem hk
      simp [hx, hne, hl, hall]
    cases a with
    | none => exact key _ rfl (by simp)
    | tuple v => exact key _ rfl (by simp)
    | list its => exact key its rfl (h1 its rfl)
    | other => exact absurd rfl h2

theorem goodRegion_iff (r : List Nat) : goodRegion r = true ↔ ∃ p q, r = [p, q] ∧ p = 2 ∧ q = 2 := by
  unfold goodRegion
  constructor
  · intro h
    match r, h with
    | [], h => simp at h
    | [_], h => simp at h
    | [p, q], h => exact ⟨p, q, rfl, by simpa using h⟩
    | _ :: _ :: _ :: _, h => simp at h
  · rintro ⟨p, q, rfl, rfl, rfl⟩
    rfl

theorem goodRegions_iff (x : Option Shape) :
    goodRegions x = true ↔ ∀ rs, x = some rs → ∀ r ∈ rs, ∃ p q, r = [p, q] ∧ p = 2 ∧ q = 2 := by
  cases x with
  | none => simp [goodRegions]
  | some rs =>
    simp only [goodRegions, List.all_eq_true, Option.some.injEq, forall_eq']
    exact forall_congr' fun r => forall_congr' fun _ => goodRegion_iff r

theorem checkRegions_error {n : Nat} {a : Regions} {x : Err} (e : checkRegions n a = .error x) : x = .value := by
  unfold checkRegions at e
  split at e
  · rename_i e' hx
    cases a <;> simp [expandRegions] at hx
    subst hx; simp at e; exact e.symm
  · split at e
    · simp at e; exact e.symm
    · split at e
      · simp at e; exact e.symm
      · split at e
        · simp at e
        · simp at e; exact e.symm

theorem checkRegions_ok {n : Nat} {a : Regions} {items : List (Option Shape)} (e : checkRegions n a = .ok items) :
    expandRegions n a = .ok items ∧ items ≠ [] ∧ items.length = n ∧ ∀ i ∈ items, goodRegions i = true := by
  unfold checkRegions at e
  cases hx : expandRegions n a with
  | error e' => simp [hx] at e
  | ok its =>
    simp only [hx] at e
    split at e
    · simp at e
    · split at e
      · simp at e
      · split at e
        · rename_i h1 h2 h3
          simp only [Except.ok.injEq] at e
          subst e
          exact ⟨rfl, h1, by simpa using h2, List.all_eq_true.mp h3⟩
        · simp at e

theorem expandRegions_get {n : Nat} {a : Regions} {items : List (Option Shape)} (h : expandRegions n a = .ok items)
    (hl : items.length = n) : ∀ k < n, items[k]? = some (regionsOf a k) := by
  intro k hk
  cases a with
  | none =>
    simp only [expandRegions, Except.ok.injEq] at h
    subst h
    simp [regionsOf, hk]
  | tuple v =>
    simp only [expandRegions, Except.ok.injEq] at h
    subst h
    simp [regionsOf, hk]
  | list its =>
    simp only [expandRegions, Except.ok.injEq] at h
    subst h
    simp [regionsOf, List.getElem?_eq_getElem (show k < its.length by omega)]
  | other => simp [expandRegions] at h

theorem checkRegions_iff {n : Nat} (hn : 0 < n) (a : Regions) : (∃ items, checkRegions n a = .ok items) ↔ RegionsFormed n a := by
  constructor
  · rintro ⟨items, e⟩
    obtain ⟨hx, hne, hl, hg⟩ := checkRegions_ok e
    cases a with
    | none => trivial
    | tuple rs =>
      simp only [expandRegions, Except.ok.injEq] at hx
      have := hg (some rs) (by rw [← hx]; simp; omega)
      exact (goodRegions_iff _).mp this rs rfl
    | list its =>
      simp only [expandRegions, Except.ok.injEq] at hx
      subst hx
      exact ⟨hl, fun rs hrs => (goodRegions_iff _).mp (hg _ hrs) rs rfl⟩
    | other => simp [expandRegions] at hx
  · intro hf
    have key : ∀ items, expandRegions n a = .ok items → items.length = n → (∀ i ∈ items, goodRegions i = true) →
        ∃ items, checkRegions n a = .ok items := by
      intro items hx hl hg
      refine ⟨items, ?_⟩
      unfold checkRegions
      have hne : items ≠ [] := List.length_pos_iff.mp (by omega)
      have hall : items.all goodRegions = true := List.all_eq_true.mpr hg
      simp [hx, hne, hl, hall]
    cases a with
    | none =>
      refine key _ rfl (by simp) ?_
      intro i hi
      rw [(List.mem_replicate.mp hi).2]; rfl
    | tuple rs =>
      refine key _ rfl (by simp) ?_
      intro i hi
      rw [(List.mem_replicate.mp hi).2, goodRegions_iff]
      rintro _ ⟨⟩
      exact hf
    | list its =>
      refine key _ rfl hf.1 ?_
      intro i hi
      rw [goodRegions_iff]
      rintro rs rfl
      exact hf.2 rs hi
    | other => exact absurd hf (by simp [RegionsFormed])

/-- The names after the check. -/
def namesAfter (nm : Option (List (Option String))) (rg : Option Shape) : Option (List (Option String)) :=
  match nm, rg with
  | none, some (r :: rs) => some (List.replicate (r :: rs).length none)
  | nm, _ => nm

/-- The names fit. -/
def NamesFit (nm : Option (List (Option String))) (rg : Option Shape) : Prop :=
  ∀ ns rs, nm = some ns → rg = some rs → rs ≠ [] → ns.length = rs.length

theorem dutNames_ok {nm : Option (List (Option String))} {rg : Option Shape} (h : NamesFit nm rg) :
    dutNames nm rg = .ok (namesAfter nm rg) := by
  match nm, rg with
  | none, none => rfl
  | some _, none => rfl
  | none, some [] => rfl
  | some _, some [] => rfl
  | none, some (r :: rs) => rfl
  | some ns, some (r :: rs) =>
    have := h ns (r :: rs) rfl rfl (by simp)
    simp [dutNames, namesAfter, this]

theorem dutNames_fit {nm : Option (List (Option String))} {rg : Option Shape} {x : Option (List (Option String))}
    (h : dutNames nm rg = .ok x) : NamesFit nm rg := by
  rintro ns rs rfl rfl hne
  match rs, hne with
  | r :: rs, _ =>
    simp only [dutNames] at h
    split at h
    · simp at h
    · rename_i hc
      simpa using hc

theorem dutNames_error {nm : Option (List (Option String))} {rg : Option Shape} {x : Err}
    (h : dutNames nm rg = .error x) : x = .value := by
  match nm, rg, h with
  | none, none, h => simp [dutNames] at h
  | some _, none, h => simp [dutNames] at h
  | none, some [], h => simp [dutNames] at h
  | some _, some [], h => simp [dutNames] at h
  | none, some (r :: rs), h => simp [dutNames] at h
  | some ns, some (r :: rs), h =>
    simp only [dutNames] at h
    split at h
    · simp at h; exact h.symm
    · simp at h

theorem namesLoop_error : ∀ (nms : List (Option (List (Option String)))) (rgs : List (Option Shape)) {x : Err},
    namesLoop nms rgs = .error x → x = .value
  | [], _, _, h => by simp [namesLoop] at h
  | _ :: _, [], _, h => by simp [namesLoop] at h
  | nm :: nms, rg :: rgs, x, h => by
    simp only [namesLoop] at h
    split at h
    · rename_i e he
      simp at h; subst h; exact dutNames_error he
    · split at h
      · rename_i e he
        simp at h; subst h; exact namesLoop_error nms rgs he
      · simp at h

theorem namesLoop_iff : ∀ (nms : List (Option (List (Option String)))) (rgs : List (Option Shape)), nms.length = rgs.length →
    ((∃ xs, namesLoop nms rgs = .ok xs) ↔ ∀ (k : Nat) (nm : _) (rg : _), nms[k]? = some nm → rgs[k]? = some rg → NamesFit nm rg)
  | [], [], _ => by simp [namesLoop]
  | nm :: nms, rg :: rgs, hl => by
    have ih := namesLoop_iff nms rgs (by simpa using hl)
    constructor
    · rintro ⟨xs, h⟩
      simp only [namesLoop] at h
      split at h
      · simp at h
      · rename_i x hx
        split at h
        · simp at h
        · rename_i ys hys
          intro k nm' rg' h1 h2
          cases k with
          | zero =>
            simp at h1 h2; subst h1; subst h2
            exact dutNames_fit hx
          | succ k => exact ih.mp ⟨ys, hys⟩ k nm' rg' (by simpa using h1) (by simpa using h2)
    · intro h
      have h0 := dutNames_ok (h 0 nm rg rfl rfl)
      obtain ⟨ys, hys⟩ := ih.mpr (fun k a b h1 h2 => h (k + 1) a b (by simpa using h1) (by simpa using h2))
      exact ⟨namesAfter nm rg :: ys, by simp only [namesLoop, h0, hys]⟩

theorem namesLoop_get : ∀ (nms : List (Option (List (Option String)))) (rgs : List (Option Shape)) {xs : List _}, nms.length = rgs.length →
    namesLoop nms rgs = .ok xs → xs.length = rgs.length ∧
      ∀ (k : Nat) (nm : _) (rg : _), nms[k]? = some nm → rgs[k]? = some rg → xs[k]? = some (namesAfter nm rg)
  | [], [], xs, _, h => by simp [namesLoop] at h; subst h; simp
  | nm :: nms, rg :: rgs, xs, hl, h => by
    simp only [namesLoop] at h
    split at h
    · simp at h
    · rename_i x hx
      split at h
      · simp at h
      · rename_i ys hys
        simp at h; subst h
        have ih := namesLoop_get nms rgs (by simpa using hl) hys
        refine ⟨by simp [ih.1], ?_⟩
        intro k nm' rg' h1 h2
        cases k with
        | zero =>
          simp at h1 h2; subst h1; subst h2
          rw [dutNames_ok (dutNames_fit hx)] at hx
          simpa using hx.symm
        | succ k => simpa using ih.2 k nm' rg' (by simpa using h1) (by simpa using h2)

theorem fill_list {h : Heap V} {d : V × V} {r : Nat} {a b : Option V} (e : h r = [a, b]) :
    fill h d (.list r) = .ok (fun k => if k = r then [some (a.getD d.1), some (b.getD d.2)] else h k, (a.getD d.1, b.getD d.2)) := by
  simp only [fill, e, fillList]

/-- One DUT gets what it is to get, provided that a tuple has no None. -/
theorem fill_ok (h : Heap V) (d : V × V) (i : Item V) (hl : (given h i).length = 2) (ht : ∀ v, i = .tuple v → none ∉ v) :
    ∃ h' v, fill h d i = .ok (h', v) ∧ Wanted h i d v ∧
      (∀ r, i ≠ .list r → h' r = h r) ∧ ∀ r, none ∉ h r → h' r = h r := by
  cases i with
  | none => exact ⟨h, d, rfl, ⟨none, none, rfl, rfl⟩, fun _ _ => rfl, fun _ _ => rfl⟩
  | tuple v =>
    match v, hl, ht v rfl with
    | [some a, some b], _, _ => exact ⟨h, (a, b), rfl, ⟨some a, some b, rfl, rfl⟩, fun _ _ => rfl, fun _ _ => rfl⟩
    | [none, _], _, hn => simp at hn
    | [_, none], _, hn => simp at hn
  | list r =>
    obtain ⟨a, b, hab⟩ : ∃ a b, h r = [a, b] := by
      simp only [given] at hl
      match h r, hl with
      | [a, b], _ => exact ⟨a, b, rfl⟩
    refine ⟨_, _, fill_list hab, ⟨a, b, hab, rfl⟩, ?_, ?_⟩
    · intro k hk
      have : k ≠ r := fun e => hk (by rw [e])
      simp [this]
    · intro k hk
      by_cases e : k = r
      · subst e
        rw [hab] at hk
        cases a <;> cases b <;> simp_all
      · simp [e]

theorem fillAll_length : ∀ (items : List (Item V)) (ds : List (V × V)) (h : Heap V) {h' : Heap V} {vs : List (V × V)},
    items.length = ds.length → fillAll h items ds = (h', .ok vs) → vs.length = ds.length
  | [], [], h, h', vs, _, e => by simp [fillAll] at e; simp [← e.2]
  | i :: is, d :: ds, h, h', vs, hl, e => by
    simp only [fillAll] at e
    split at e
    · simp at e
    · rename_i h1 v hv
      split at e
      · simp at e
      · rename_i h2 ws hws
        simp at e
        rw [← e.2]
        simp [fillAll_length is ds h1 (by simpa using hl) hws]

/-- All DUTs get what they are to get, if no tuple has None and no list with None is used twice. -/
theorem fillAll_ok : ∀ (items : List (Item V)) (ds : List (V × V)) (h : Heap V), items.length = ds.length →
    (∀ i ∈ items, (given h i).length = 2) → (∀ v, .tuple v ∈ items → none ∉ v) →
    items.Pairwise (fun i j => ∀ r, i = .list r → j = .list r → none ∉ h r) →
    ∃ h' vs, fillAll h items ds = (h', .ok vs) ∧
      ∀ (k : Nat) (i : Item V) (d v : V × V), items[k]? = some i → ds[k]? = some d → vs[k]? = some v → Wanted h i d v
  | [], [], h, _, _, _, _ => ⟨h, [], rfl, by simp⟩
  | i :: is, d :: ds, h, hl, hp, ht, hd => by
    obtain ⟨h1, v, hf, hw, hk1, hk2⟩ := fill_ok h d i (hp i (by simp)) (fun v e => ht v (by simp [e]))
    have hsame : ∀ j ∈ is, given h1 j = given h j := by
      intro j hj
      cases j with
      | none => rfl
      | tuple v => rfl
      | list r =>
        simp only [given]
        by_cases e : i = .list r
        · exact hk2 r ((List.pairwise_cons.mp hd).1 _ hj r e rfl)
        · exact hk1 r e
    have hd1 : is.Pairwise (fun i j => ∀ r, i = .list r → j = .list r → none ∉ h1 r) := by
      refine (List.Pairwise.and_mem.mp (List.pairwise_cons.mp hd).2).imp ?_
      rintro a b ⟨ha, _, hab⟩ r ea eb
      have := hsame a ha
      rw [ea] at this
      simp only [given] at this
      rw [this]
      exact hab r ea eb
    obtain ⟨h2, vs, hf2, hw2⟩ := fillAll_ok is ds h1 (by simpa using hl) (fun j hj => by rw [hsame j hj]; exact hp j (by simp [hj]))
      (fun v hv => ht v (by simp [hv])) hd1
    refine ⟨h2, v :: vs, by simp only [fillAll, hf, hf2], ?_⟩
    intro k j d' v' e1 e2 e3
    cases k with
    | zero =>
      simp at e1 e2 e3; subst e1; subst e2; subst e3
      exact hw
    | succ k =>
      simp at e1 e2 e3
      obtain ⟨a, b, g1, g2⟩ := hw2 k j d' v' e1 e2 e3
      exact ⟨a, b, by rw [← hsame j (List.mem_of_getElem? e1)]; exact g1, g2⟩

/-- The checks of the regions and the names for arguments of the documented form. -/
theorem checkNames_error {n : Nat} {rgs : List (Option Shape)} {b : Names} {x : Err} (h : checkNames n rgs b = .error x) : x = .value := by
  cases b with
  | none => exact namesLoop_error _ _ h
  | list items =>
    simp only [checkNames] at h
    split at h
    · simp at h; exact h.symm
    · split at h
      · simp at h; exact h.symm
      · exact namesLoop_error _ _ h
  | other => simp [checkNames] at h; exact h.symm

theorem checkNames_loop {n : Nat} {rgs : List (Option Shape)} {b : Names} {xs : List _} (hl : rgs.length = n) (h : checkNames n rgs b = .ok xs) :
    ∃ nms : List (Option (List (Option String))), nms.length = n ∧ (∀ k < n, nms[k]? = some (namesOf b k)) ∧ namesLoop nms rgs = .ok xs := by
  cases b with
  | none =>
    refine ⟨_, by simp, ?_, h⟩
    intro k hk
    simp [namesOf, hk]
  | list items =>
    simp only [checkNames] at h
    split at h
    · simp at h
    · split at h
      · simp at h
      · rename_i h1 h2
        have h2' : items.length = n := by simpa using h2
        refine ⟨items, h2', ?_, h⟩
        intro k hk
        simp [namesOf, List.getElem?_eq_getElem (show k < items.length by omega)]
  | other => simp [checkNames] at h

theorem checkNames_iff {n : Nat} (hn : 0 < n) {a : Regions} {rgs : List (Option Shape)} {b : Names} (hl : rgs.length = n)
    (hr : ∀ k < n, rgs[k]? = some (regionsOf a k)) : (∃ xs, checkNames n rgs b = .ok xs) ↔ NamesFormed n a b := by
  constructor
  · rintro ⟨xs, h⟩
    obtain ⟨nms, h1, h2, h3⟩ := checkNames_loop hl h
    refine ⟨?_, ?_, ?_⟩
    · rintro rfl; simp [checkNames] at h
    · rintro items rfl
      simp only [checkNames] at h
      split at h
      · simp at h
      · split at h
        · simp at h
        · rename_i h2; simpa using h2
    · intro k hk ns rs e1 e2 e3
      exact (namesLoop_iff nms rgs (by omega)).mp ⟨xs, h3⟩ k _ _ (h2 k hk) (hr k hk) ns rs e1 e2 e3
  · rintro ⟨h1, h2, h3⟩
    have key : ∀ nms : List (Option (List (Option String))), nms.length = n → (∀ k < n, nms[k]? = some (namesOf b k)) →
        ∃ xs, namesLoop nms rgs = .ok xs := by
      intro nms e1 e2
      refine (namesLoop_iff nms rgs (by omega)).mpr ?_
      intro k nm rg g1 g2
      have hk : k < n := by
        have := (List.getElem?_eq_some_iff.mp g1).1
        omega
      rw [e2 k hk] at g1
      rw [hr k hk] at g2
      simp only [Option.some.injEq] at g1 g2
      subst g1; subst g2
      exact fun ns rs => h3 k hk ns rs
    cases b with
    | none => exact key _ (by simp) (fun k hk => by simp [namesOf, hk])
    | list items =>
      have hlen := h2 items rfl
      have hne : items ≠ [] := List.length_pos_iff.mp (by omega)
      obtain ⟨xs, hxs⟩ := key items hlen (fun k hk => by simp [namesOf, List.getElem?_eq_getElem (show k < items.length by omega)])
      exact ⟨xs, by simp [checkNames, hne, hlen, hxs]⟩
    | other => exact absurd rfl h1

end BTA.EffArgs
