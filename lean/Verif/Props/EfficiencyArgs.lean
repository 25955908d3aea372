/-
C161, C162: the arguments of `calculate_efficiency`.
-/
import Verif.Lemmas.EfficiencyArgs

namespace BTA.EffArgs.Props

variable {V : Type}

/-- The arguments are of the documented form. -/
def Documented (c : Call V) : Prop :=
  WellFormed c.heap c.duts.length c.resolutions ∧ RegionsFormed c.duts.length c.regions ∧ NamesFormed c.duts.length c.regions c.names

theorem call_documented {c : Call V} (h : Documented c) : ∃ items rgs nms,
    checkPairs c.heap c.duts.length c.resolutions = .ok items ∧ checkRegions c.duts.length c.regions = .ok rgs ∧
      checkNames c.duts.length rgs c.names = .ok nms ∧
      call c = run rgs nms (fillAll c.heap items c.duts) := by
  obtain ⟨h1, h2, h3⟩ := h
  have hn : 0 < c.duts.length := h1.1
  obtain ⟨items, e1⟩ := (checkPairs_iff _ _ _).mpr h1
  obtain ⟨rgs, e2⟩ := (checkRegions_iff hn _).mpr h2
  obtain ⟨g1, g2, g3, g4⟩ := checkRegions_ok e2
  obtain ⟨nms, e3⟩ := (checkNames_iff (b := c.names) hn g3 (expandRegions_get g1 g3)).mpr h3
  refine ⟨items, rgs, nms, e1, e2, e3, ?_⟩
  simp only [call, e1, e2, e3]

/-- C162: the output file is opened (and an existing one replaced) only if the arguments are of the documented form. -/
theorem C162_opened_iff (c : Call V) : (call c).opened = true ↔ Documented c := by
  constructor
  · intro h
    unfold call at h
    split at h
    · simp at h
    · rename_i items e1
      split at h
      · simp at h
      · rename_i rgs e2
        split at h
        · simp at h
        · rename_i nms e3
          have h1 := (checkPairs_iff _ _ _).mp ⟨items, e1⟩
          obtain ⟨g1, g2, g3, g4⟩ := checkRegions_ok e2
          exact ⟨h1, (checkRegions_iff h1.1 _).mp ⟨rgs, e2⟩, (checkNames_iff h1.1 g3 (expandRegions_get g1 g3)).mp ⟨nms, e3⟩⟩
  · intro h
    obtain ⟨items, rgs, nms, _, _, _, e⟩ := call_documented h
    rw [e]
    unfold run
    split <;> rfl

/-- C162: other arguments are answered with a ValueError, and the lists of the caller are as before. -/
theorem C162_value_error (c : Call V) (h : ¬ Documented c) : (call c).result = .error .value ∧ (call c).heap = c.heap := by
  have hn : (call c).opened ≠ true := fun e => h ((C162_opened_iff c).mp e)
  unfold call at hn ⊢
  split
  · rename_i e he
    exact ⟨by rw [checkPairs_error he], rfl⟩
  · rename_i items e1
    simp only [e1] at hn
    split
    · rename_i e he
      exact ⟨by rw [checkRegions_error he], rfl⟩
    · rename_i rgs e2
      simp only [e2] at hn
      split
      · rename_i e he
        exact ⟨by rw [checkNames_error he], rfl⟩
      · rename_i nms e3
        simp only [e3] at hn
        exfalso; apply hn
        unfold run
        split <;> rfl

theorem fill_error {h : Heap V} {d : V × V} {i : Item V} {x : Err} (e : fill h d i = .error x) : x = .type := by
  unfold fill at e
  split at e
  · simp at e
  · simp at e
  · simp at e; exact e.symm
  · split at e
    · simp at e
    · simp at e; exact e.symm

theorem fillAll_error : ∀ (items : List (Item V)) (ds : List (V × V)) (h : Heap V) {h' : Heap V} {x : Err},
    fillAll h items ds = (h', .error x) → x = .type
  | [], _, h, h', x, e => by simp [fillAll] at e
  | _ :: _, [], h, h', x, e => by simp [fillAll] at e
  | i :: is, d :: ds, h, h', x, e => by
    simp only [fillAll] at e
    split at e
    · rename_i y hy
      simp at e; rw [← e.2]; exact fill_error hy
    · split at e
      · rename_i y hy
        simp at e; rw [← e.2]; exact fillAll_error is ds _ hy
      · simp at e

/-- C162: and a ValueError is raised for no other arguments. -/
theorem C162_value_error_iff (c : Call V) : (call c).result = .error .value ↔ ¬ Documented c := by
  refine ⟨?_, fun h => (C162_value_error c h).1⟩
  intro h hd
  obtain ⟨items, rgs, nms, _, _, _, e⟩ := call_documented hd
  rw [e] at h
  unfold run at h
  split at h
  · rename_i h' x hx
    simp at h
    subst h
    exact absurd (fillAll_error _ _ _ hx) (by simp)
  · simp at h

/-- C162: after a call that succeeds, a DUT with regions has a name (or None, if none is given) for each of its regions: the given ones. -/
theorem C162_names {c : Call V} {vs : List (V × V)} {rgs : List (Option Shape)} {nms : List (Option (List (Option String)))}
    (h : (call c).result = .ok (vs, rgs, nms)) {k : Nat} (hk : k < c.duts.length) {rs : Shape} (hr : regionsOf c.regions k = some rs) (hne : rs ≠ []) :
    rgs[k]? = some (some rs) ∧ ∃ ns, nms[k]? = some (some ns) ∧ ns.length = rs.length ∧
      (∀ given, namesOf c.names k = some given → ns = given) ∧ (namesOf c.names k = none → ∀ x ∈ ns, x = none) := by
  have hd : Documented c := by
    refine Classical.byContradiction fun hc => ?_
    rw [(C162_value_error c hc).1] at h
    simp at h
  obtain ⟨items, rgs', nms', e1, e2, e3, e⟩ := call_documented hd
  rw [e] at h
  unfold run at h
  split at h
  · simp at h
  · simp only [Except.ok.injEq, Prod.mk.injEq] at h
    obtain ⟨-, rfl, rfl⟩ := h
    obtain ⟨g1, g2, g3, g4⟩ := checkRegions_ok e2
    have hrk := expandRegions_get g1 g3 k hk
    rw [hr] at hrk
    refine ⟨hrk, ?_⟩
    obtain ⟨l, l1, l2, l3⟩ := checkNames_loop g3 e3
    have hx := (namesLoop_get l rgs' (by omega) l3).2 k _ _ (l2 k hk) hrk
    have hfit := (namesLoop_iff l rgs' (by omega)).mp ⟨_, l3⟩ k _ _ (l2 k hk) hrk
    match rs, hne with
    | r :: rs, _ =>
      cases hn : namesOf c.names k with
      | none =>
        rw [hn] at hx
        refine ⟨_, hx, by simp, by simp, fun _ x hx => (List.mem_replicate.mp hx).2⟩
      | some ns =>
        rw [hn] at hx hfit
        exact ⟨ns, hx, hfit ns _ rfl rfl (by simp), by simp, by simp⟩

/-- C161, partial: each DUT is analysed with the pair given for it, its own defaults in place of None. Missing: tuples with None as an
element, and lists with None which are given for several DUTs (see `C161_tuple_none`, `C161_shared_list`). -/
theorem C161_pairs_partial (c : Call V) (hd : Documented c)
    (ht : ∀ k < c.duts.length, ∀ v, entry c.resolutions k = some (.tuple v) → none ∉ v)
    (hs : ∀ j < c.duts.length, ∀ k < c.duts.length, ∀ r, j ≠ k → entry c.resolutions j = some (.list r) →
      entry c.resolutions k = some (.list r) → none ∉ c.heap r) :
    ∃ vs rgs nms, (call c).result = .ok (vs, rgs, nms) ∧ vs.length = c.duts.length ∧
      ∀ (k : Nat) (i : Item V) (d v : V × V), entry c.resolutions k = some i → c.duts[k]? = some d → vs[k]? = some v → Wanted c.heap i d v := by
  obtain ⟨items, rgs, nms, e1, e2, e3, e⟩ := call_documented hd
  obtain ⟨g1, g2, g3, g4⟩ := checkPairs_ok e1
  have hget := expand_ok g1 g3
  obtain ⟨h', vs, f1, f2⟩ := fillAll_ok items c.duts c.heap g3 g4
    (by
      intro v hv
      obtain ⟨k, hk, hkv⟩ := List.getElem_of_mem hv
      refine ht k (by omega) v ?_
      rw [← hget k (by omega), List.getElem?_eq_getElem hk, hkv])
    (by
      rw [List.pairwise_iff_getElem]
      intro j k hj hk hjk r ej ek
      refine hs j (by omega) k (by omega) r (by omega) ?_ ?_
      · rw [← hget j (by omega), List.getElem?_eq_getElem hj, ej]
      · rw [← hget k (by omega), List.getElem?_eq_getElem hk, ek])
  refine ⟨vs, rgs, nms, by rw [e, f1]; rfl, fillAll_length items c.duts c.heap g3 f1, ?_⟩
  intro k i d v h1 h2 h3
  have hk : k < c.duts.length := (List.getElem?_eq_some_iff.mp h2).1
  exact f2 k i d v (by rw [hget k hk]; exact h1) h2 h3

/-- C161, counterexample: a tuple with None as an element, for which the default is documented, ends in a TypeError, after an existing output
file has been replaced. -/
theorem C161_tuple_none (c : Call V) (hd : Documented c) (v : List (Option V)) (hv : none ∈ v) (ha : c.resolutions = .tuple v) :
    (call c).opened = true ∧ (call c).result = .error .type ∧ (call c).heap = c.heap := by
  refine ⟨(C162_opened_iff c).mpr hd, ?_⟩
  obtain ⟨items, rgs, nms, e1, e2, e3, e⟩ := call_documented hd
  obtain ⟨g1, g2, g3, g4⟩ := checkPairs_ok e1
  rw [ha] at g1
  simp only [expand, Except.ok.injEq] at g1
  obtain ⟨d, ds, hds⟩ : ∃ d ds, c.duts = d :: ds := List.exists_cons_of_length_pos hd.1.1
  rw [hds] at g1
  simp only [List.length_cons, List.replicate_succ] at g1
  have hf : fill c.heap d (.tuple v) = .error .type := by
    unfold fill
    split
    · rename_i h; simp at h
    · rename_i a b h; simp at h; subst h; simp at hv
    · rfl
    · rename_i h; simp at h
  have : fillAll c.heap items c.duts = (c.heap, .error .type) := by
    rw [hds, ← g1]
    simp only [fillAll, hf]
  rw [e, this]
  exact ⟨rfl, rfl⟩

/-- C161, counterexample: if a list with None is given for two DUTs, the second DUT is analysed with the default of the first. -/
theorem C161_shared_list (c : Call V) (r : Nat) (b : Option V) (d₁ d₂ : V × V) (hr : c.heap r = [none, b]) (hds : c.duts = [d₁, d₂])
    (ha : c.resolutions = .list [.list r, .list r]) (h2 : RegionsFormed 2 c.regions) (h3 : NamesFormed 2 c.regions c.names) :
    ∃ v₁ v₂ rgs nms, (call c).result = .ok ([v₁, v₂], rgs, nms) ∧ v₁.1 = d₁.1 ∧ v₂.1 = d₁.1 := by
  have hd : Documented c := by
    refine ⟨⟨by simp [hds], ?_, by simp [ha], ?_⟩, by rw [hds]; exact h2, by rw [hds]; exact h3⟩
    · rintro items e
      rw [ha] at e
      simp at e
      simp [← e, hds]
    · intro k hk i hi
      rw [ha] at hi
      simp only [entry] at hi
      have := List.mem_of_getElem? hi
      simp at this
      simp [this, given, hr]
  obtain ⟨items, rgs, nms, e1, e2, e3, e⟩ := call_documented hd
  obtain ⟨g1, g2, g3, g4⟩ := checkPairs_ok e1
  rw [ha] at g1
  simp only [expand, Except.ok.injEq] at g1
  subst g1
  rw [hds] at e
  refine ⟨(d₁.1, b.getD d₁.2), (d₁.1, b.getD d₁.2), rgs, nms, ?_, rfl, rfl⟩
  rw [e]
  simp only [run, fillAll, fill_list hr]
  rw [fill_list (a := some d₁.1) (b := some (b.getD d₁.2)) (by simp)]
  simp

theorem fill_heap {h h' : Heap V} {d v : V × V} {i : Item V} (e : fill h d i = .ok (h', v)) :
    (∀ r, i = .list r → none ∉ h' r) ∧ (∀ r, none ∉ h r → h' r = h r) ∧ ∀ r, i ≠ .list r → h' r = h r := by
  unfold fill at e
  split at e
  · simp at e; obtain ⟨rfl, _⟩ := e; exact ⟨by simp, fun _ _ => rfl, fun _ _ => rfl⟩
  · simp at e; obtain ⟨rfl, _⟩ := e; exact ⟨by simp, fun _ _ => rfl, fun _ _ => rfl⟩
  · simp at e
  · rename_i r
    split at e
    · rename_i a b hab
      simp at e
      obtain ⟨rfl, _⟩ := e
      refine ⟨?_, ?_, ?_⟩
      · rintro _ ⟨⟩
        simp [hab, fillList]
      · intro k hk
        by_cases ek : k = r
        · subst ek
          rw [hab] at hk
          cases a <;> cases b <;> simp_all [fillList]
        · simp [ek]
      · intro k hk
        have : k ≠ r := fun ek => hk (by rw [ek])
        simp [this]
    · simp at e

theorem fillAll_heap : ∀ (items : List (Item V)) (ds : List (V × V)) (h : Heap V) {h' : Heap V} {vs : List (V × V)},
    items.length = ds.length → fillAll h items ds = (h', .ok vs) →
    (∀ r, .list r ∈ items → none ∉ h' r) ∧ (∀ r, none ∉ h r → h' r = h r) ∧ ∀ r, .list r ∉ items → h' r = h r
  | [], [], h, h', vs, _, e => by simp [fillAll] at e; simp [← e.1]
  | i :: is, d :: ds, h, h', vs, hl, e => by
    simp only [fillAll] at e
    split at e
    · simp at e
    · rename_i h1 v hv
      split at e
      · simp at e
      · rename_i h2 ws hws
        simp at e
        obtain ⟨rfl, _⟩ := e
        obtain ⟨a1, a2, a3⟩ := fill_heap hv
        obtain ⟨b1, b2, b3⟩ := fillAll_heap is ds h1 (by simpa using hl) hws
        refine ⟨?_, ?_, ?_⟩
        · intro r hr
          rcases List.mem_cons.mp hr with hr | hr
          · rw [b2 r (a1 r hr.symm)]; exact a1 r hr.symm
          · exact b1 r hr
        · intro r hr
          rw [b2 r (by rw [a2 r hr]; exact hr), a2 r hr]
        · intro r hr
          simp at hr
          rw [b3 r hr.2, a3 r (fun e => hr.1 e.symm)]

/-- C161: the lists of the caller are changed: the defaults are written in place of None, so that a second call with the same lists uses the
defaults of the first call. Lists without None and lists not given in this call keep their elements. -/
theorem C161_caller_changed {c : Call V} {x : List (V × V) × List (Option Shape) × List (Option (List (Option String)))} {items : List (Item V)}
    (h : (call c).result = .ok x) (ha : c.resolutions = .list items) :
    (∀ r, .list r ∈ items → none ∉ (call c).heap r) ∧ (∀ r, none ∉ c.heap r → (call c).heap r = c.heap r) ∧
      ∀ r, .list r ∉ items → (call c).heap r = c.heap r := by
  have hd : Documented c := by
    refine Classical.byContradiction fun hc => ?_
    rw [(C162_value_error c hc).1] at h
    simp at h
  obtain ⟨items', rgs, nms, e1, e2, e3, e⟩ := call_documented hd
  obtain ⟨g1, g2, g3, g4⟩ := checkPairs_ok e1
  rw [ha] at g1
  simp only [expand, Except.ok.injEq] at g1
  subst g1
  rw [e] at h ⊢
  unfold run at h ⊢
  split at h
  · simp at h
  · rename_i h' vs hf
    simp only [hf]
    exact fillAll_heap items c.duts c.heap g3 hf

/-- Two DUTs with pixels of 50 x 250 and 100 x 100 and a resolution of 25 in y and the pixel size in x, region and names for the second DUT. -/
def twoDuts (a : Arg Nat) : Call Nat where
  heap := fun r => if r = 7 then [none, some 25] else if r = 8 then [some 10, some 20] else []
  resolutions := a
  regions := .list [none, some [[2, 2], [2, 2]]]
  names := .list [none, some [some "left", none]]
  duts := [(50, 250), (100, 100)]

example : Documented (twoDuts (.list [.list 7, .list 8])) := (C162_opened_iff _).mp (by decide +kernel)
example : Documented (twoDuts (.tuple [none, some 25])) := (C162_opened_iff _).mp (by decide +kernel)
example : Documented (twoDuts .none) := (C162_opened_iff _).mp (by decide +kernel)
/-- One entry for two DUTs. -/
example : ¬ Documented (twoDuts (.list [.list 7])) := fun h => absurd ((C162_opened_iff _).mpr h) (by decide +kernel)
example : (call (twoDuts (.list [.list 7, .list 8]))).result =
    .ok ([(50, 25), (10, 20)], [none, some [[2, 2], [2, 2]]], [none, some [some "left", none]]) := rfl
/-- The second DUT gets the pixel size of the first one, 50 instead of 100. -/
example : (call (twoDuts (.list [.list 7, .list 7]))).result =
    .ok ([(50, 25), (50, 25)], [none, some [[2, 2], [2, 2]]], [none, some [some "left", none]]) := rfl
example : (call (twoDuts (.list [.list 7, .none]))).heap 7 = [some 50, some 25] := by decide +kernel
example : (call (twoDuts (.tuple [none, some 25]))).result = .error .type := rfl

end BTA.EffArgs.Props
