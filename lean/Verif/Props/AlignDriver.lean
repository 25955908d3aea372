import Verif.Lemmas.AlignRun
/-
C118: settings of the groups in `align`; C119: default values; C120: DUTs that are not selected; C121: alignment parameters;
C122: configuration files.
-/
namespace BTA.Align.Props
open BTA.Dut BTA.Transformation BTA.Transformation.Props BTA.Align BTA.Align.Spec BTA.AlignTel.Props

/-! ### C118 -/

/-- C118: `align` accepts the arguments exactly if there are settings for each group that belong to the arguments, and these settings are
used. -/
theorem C118_settings (legacy : Bool) (n : Nat) (a : Args) (gs : List Group) (q : List (Option (ℝ × ℝ))) :
    settings legacy n a = .ok (gs, q) ↔ Settings legacy n a gs q := settings_iff legacy n a gs q

/-- The settings are unique. -/
theorem C118_unique (legacy : Bool) (n : Nat) (a : Args) (gs gs' : List Group) (q q' : List (Option (ℝ × ℝ)))
    (h : Settings legacy n a gs q) (h' : Settings legacy n a gs' q') : gs = gs' ∧ q = q' := by
  have h1 := (settings_iff legacy n a gs q).mpr h
  rw [(settings_iff legacy n a gs' q').mpr h'] at h1
  injection h1 with h1
  injection h1 with h1 h2
  exact ⟨h1.symm, h2.symm⟩

theorem stepCalls_fit (a : Args) (q : List (Option (ℝ × ℝ))) (g : Group) (step : Nat) (c c2 : Conf) :
    (stepCalls a q g step c c2).filterMap fitOf = [(g.duts, g.fitDuts, requiredHits g)] := by
  unfold stepCalls findCall
  split <;> split <;> split <;> rfl

theorem stepCalls_select (a : Args) (q : List (Option (ℝ × ℝ))) (g : Group) (step : Nat) (c c2 : Conf) :
    (stepCalls a q g step c c2).filterMap selectionOf = [(g.duts, requiredHits g, List.zipWith queryOf g.chi2 g.shapes)] := by
  unfold stepCalls findCall
  split <;> split <;> split <;> rfl

/-- Calls of a certain kind, when each iteration makes one of them. -/
theorem group_calls {β : Type} (f : Call → Option β) (v : Group → β) (hf : ∀ c t m, f (.findTracks c t m) = none)
    (hv : ∀ a q g step c c2, (stepCalls a q g step c c2).filterMap f = [v g])
    {o : Oracle} {a : Args} {input : Conf} {q : List (Option (ℝ × ℝ))} {g : Group} {w w' : World}
    (h : alignGroup o a q g (findPrealigned input w) = .ok w') :
    w'.calls.filterMap f = List.replicate g.iterations (v g) ++ w.calls.filterMap f := by
  obtain ⟨w1, h1, h2⟩ := alignGroup_ok h
  have hp : (findPrealigned input w).calls.filterMap f = w.calls.filterMap f := by
    unfold findPrealigned
    split
    · rfl
    · simp [World.call, hf]
  rw [(removeCandidates_ok h2).2.1]
  have := iterations_inv (o := o) (a := a) (quality := q) (g := g)
    (fun step x => x.calls.filterMap f = List.replicate step (v g) ++ w.calls.filterMap f) (fun step x x' tel c1 c2 hx hi => by
      rw [hi.calls, List.filterMap_append, hv, hx, List.replicate_succ]
      rfl) g.iterations 0 _ w1 (by simpa using hp) h1
  simpa using this

theorem run_calls {β : Type} (f : Call → Option β) (v : Group → β) (hf : ∀ c t m, f (.findTracks c t m) = none)
    (hv : ∀ a q g step c c2, (stepCalls a q g step c c2).filterMap f = [v g])
    {o : Oracle} {a : Args} {input : Conf} {q : List (Option (ℝ × ℝ))} : ∀ (gs : List Group) (w w' : World),
    alignGroups o a input q gs w = .ok w' →
    w'.calls.reverse.filterMap f = w.calls.reverse.filterMap f ++ gs.flatMap fun g => List.replicate g.iterations (v g)
  | [], w, w', h => by
    simp only [alignGroups] at h
    injection h with h
    subst h
    simp
  | g :: gs, w, w', h => by
    simp only [alignGroups] at h
    split at h
    · cases h
    · obtain ⟨w1, h1, h2⟩ := bind_ok h
      have e := group_calls f v hf hv h1
      rw [run_calls f v hf hv gs w1 w' h2, List.filterMap_reverse, e, List.reverse_append, List.filterMap_reverse]
      simp

/-- C118: the groups are aligned one after the other, each one as often as its number of iterations, with its own DUTs and fit DUTs. For
each DUT, exactly the hit DUTs of the group and the DUT itself must have a hit. -/
theorem C118_fits (legacy : Bool) (root : List Char → List Char) (o : Oracle) (a : Args) (store : Store) (input : List Char)
    (output : Option (List Char)) (files : List Tmp) (r : Result) (h : align legacy root o a store input output files = .ok r) :
    ∃ conf gs q, store input = some conf ∧ Settings legacy conf.n a gs q ∧
      ∃ hits : Group → List (List Nat), (∀ g, List.Forall₂ (fun d l => l.Nodup ∧ ∀ x, x ∈ l ↔ x ∈ g.hitDuts ∨ x = d) g.duts (hits g)) ∧
      r.world.calls.reverse.filterMap fitOf = gs.flatMap fun g => List.replicate g.iterations (g.duts, g.fitDuts, hits g) := by
  obtain ⟨conf, s, h1, h2, -, h4, -⟩ := align_ok h
  obtain ⟨gs, q⟩ := s
  obtain ⟨w1, h5, h6⟩ := runAlign_ok h4
  refine ⟨conf, gs, q, h1, (settings_iff _ _ _ _ _).mp h2, requiredHits, fun g => ?_, ?_⟩
  · unfold requiredHits
    rw [List.forall₂_map_right_iff, List.forall₂_same]
    intro d _
    exact ⟨List.nodup_dedup _, fun x => by simp⟩
  · rw [h6]
    have := run_calls fitOf (fun g => (g.duts, g.fitDuts, requiredHits g)) (fun _ _ _ => rfl) stepCalls_fit gs _ _ h5
    simpa [cleanUp] using this

/-! ### C119 -/

/-- C119: with the default value of `select_duts` the call always fails. -/
theorem C119_select_duts (legacy : Bool) (n : Nat) (a : Args) (h : a.selectDuts = none) : settings legacy n a = .error .notSequence := by
  simp [settings, groupsOf, h, bind, Except.bind]

/-- C119: with the default value of `select_hit_duts`, every call with a group of one DUT fails. This includes the example in the
documentation of `align`. -/
theorem C119_single_dut (legacy : Bool) (n : Nat) (a : Args) (h : a.hitDuts = none) (groups : List (List Nat)) (d : Nat)
    (hg : a.selectDuts = some (groups.map .many)) (hd : [d] ∈ groups) : ∃ e, settings legacy n a = .error e := by
  cases hs : settings legacy n a with
  | error e => exact ⟨e, rfl⟩
  | ok s =>
    obtain ⟨gs, q⟩ := s
    have k := (settings_iff _ _ _ _ _).mp hs
    have k1 := k.duts
    have k3 := k.hitDuts
    unfold IsPerGroup at k3
    rw [h] at k3
    dsimp only at k3
    have hmem : [d] ∈ gs.map Group.duts := by
      rcases k1.1 with ⟨duts, a1, a2⟩ | ⟨a1, -⟩
      · rw [hg] at a1
        injection a1 with a1
        rw [(one_many a1.symm).2] at hd
        cases hd
      · rw [hg] at a1
        injection a1 with a1
        rw [← List.map_injective_iff.mpr (fun x y h => by injection h) a1]
        exact hd
    rw [← k3] at hmem
    obtain ⟨g, hg1, hg2⟩ := List.mem_map.mp hmem
    have := (k.enough g hg1).1
    rw [hg2] at this
    simp at this

/-- C119: the same for a flat list with one DUT. -/
theorem C119_single_flat (legacy : Bool) (n : Nat) (a : Args) (h : a.hitDuts = none) (d : Nat)
    (hg : a.selectDuts = some [.one d]) : ∃ e, settings legacy n a = .error e := by
  cases hs : settings legacy n a with
  | error e => exact ⟨e, rfl⟩
  | ok s =>
    obtain ⟨gs, q⟩ := s
    have k := (settings_iff _ _ _ _ _).mp hs
    have k3 := k.hitDuts
    unfold IsPerGroup at k3
    rw [h] at k3
    dsimp only at k3
    have hmem : gs.map Group.duts = [[d]] := by
      rcases k.duts.1 with ⟨duts, a1, a2⟩ | ⟨a1, -⟩
      · rw [hg] at a1
        injection a1 with a1
        have : [d] = duts := List.map_injective_iff.mpr (fun x y h => by injection h) (show [d].map Item.one = _ from a1)
        rw [a2, this]
      · rw [hg] at a1
        injection a1 with a1
        exact absurd (one_many (show [d].map Item.one = _ from a1)).1 (by simp)
    rw [hmem] at k3
    cases gs with
    | nil => simp at hmem
    | cons g gs =>
      have := (k.enough g (by simp)).1
      simp only [List.map_cons, List.cons.injEq] at k3
      rw [k3.1] at this
      simp at this

/-- C119: numpy 1.24 and later: groups of different sizes fail. -/
theorem C119_sizes (n : Nat) (a : Args) (groups : List (List Nat)) (hg : a.selectDuts = some (groups.map .many)) (g g' : List Nat)
    (h : g ∈ groups) (h' : g' ∈ groups) (hl : g.length ≠ g'.length) : settings false n a = .error .inhomogeneous := by
  have h1 : allOne (groups.map Item.many) = none := by
    cases hx : allOne (groups.map Item.many) with
    | none => rfl
    | some l =>
      have := (allOne_iff _ _).mp hx
      rw [(one_many this.symm).2] at h
      cases h
  have h2 : allMany (groups.map Item.many) = some groups := (allMany_iff _ _).mpr rfl
  have h3 : sameLength groups = false := by
    rw [Bool.eq_false_iff]
    intro hs
    obtain ⟨m, hm⟩ := (sameLength_iff _).mp hs
    exact hl ((hm g h).trans (hm g' h').symm)
  have h4 : rectangular (groups.map Item.many) = false := by simp [rectangular, h1, h2, h3]
  have h5 : groupsOf false a.selectDuts = .error .inhomogeneous := by
    rw [hg]
    cases groups with
    | nil => cases h
    | cons x xs =>
      unfold groupsOf
      simp only [List.map_cons] at h4 ⊢
      simp [h4]
  simp [settings, h5, bind, Except.bind]

/-- An iteration fails if `select_telescope_duts` is None or an item of `quality_distances` is None. -/
theorem iterate_needs {o : Oracle} {a : Args} {input : Conf} {q : List (Option (ℝ × ℝ))} : ∀ (gs : List Group) (w w' : World),
    alignGroups o a input q gs w = .ok w' → ∀ g ∈ gs, 0 < g.iterations → a.telescopeDuts ≠ none ∧ ∀ d ∈ q, d ≠ none
  | [], _, _, _, g, hg, _ => by cases hg
  | g :: gs, w, w', h, g', hg', hpos => by
    simp only [alignGroups] at h
    split at h
    · cases h
    · obtain ⟨w1, h1, h2⟩ := bind_ok h
      rcases List.mem_cons.mp hg' with rfl | hm
      · obtain ⟨w2, h3, -⟩ := alignGroup_ok h1
        obtain ⟨k, hk⟩ := Nat.exists_eq_succ_of_ne_zero (Nat.pos_iff_ne_zero.mp hpos)
        rw [hk] at h3
        simp only [iterations] at h3
        obtain ⟨w3, h4, -⟩ := bind_ok h3
        obtain ⟨tel, c1, c2, hi⟩ := iteration_ok h4
        exact ⟨by rw [hi.telescope]; simp, hi.distances⟩
      · exact iterate_needs gs w1 w' h2 g' hm hpos

/-- C119: with the default value of `select_telescope_duts`, or with `quality_distances` None for some DUT, no call succeeds that has an
iteration to do. -/
theorem C119_telescope_quality (legacy : Bool) (root : List Char → List Char) (o : Oracle) (a : Args) (store : Store) (input : List Char)
    (output : Option (List Char)) (files : List Tmp) (r : Result) (h : align legacy root o a store input output files = .ok r) :
    ∃ conf gs q, store input = some conf ∧ Settings legacy conf.n a gs q ∧
      ((∃ g ∈ gs, 0 < g.iterations) → a.telescopeDuts ≠ none ∧ ∀ d ∈ q, d ≠ none) := by
  obtain ⟨conf, s, h1, h2, -, h4, -⟩ := align_ok h
  obtain ⟨gs, q⟩ := s
  obtain ⟨w1, h5, h6⟩ := runAlign_ok h4
  exact ⟨conf, gs, q, h1, (settings_iff _ _ _ _ _).mp h2, fun ⟨g, hg, hpos⟩ => iterate_needs gs _ _ h5 g hg hpos⟩

/-- C119: what remains true. If the groups are given explicitly, have the same size and at least two DUTs each, all other arguments can
have their default values as far as the checks of the arguments are concerned. -/
theorem C119_partial (legacy : Bool) (n : Nat) (hn : n ≠ 0) (groups : List (List Nat)) (hne : groups ≠ []) (m : Nat) (hm : 2 ≤ m)
    (hg : ∀ g ∈ groups, g.length = m) :
    settings legacy n { selectDuts := some (groups.map .many) } = .ok (groups.map fun g =>
      ⟨g, List.replicate m none, g, g, 3, none, List.replicate m (some 10), List.replicate m none⟩, List.replicate n (some (250, 250))) := by
  rw [settings_iff]
  have hmap : ∀ f : Group → List Nat, (∀ g : List Nat, f ⟨g, List.replicate m none, g, g, 3, none, List.replicate m (some 10), List.replicate m none⟩ = g) →
      ((groups.map fun g => (⟨g, List.replicate m none, g, g, 3, none, List.replicate m (some 10), List.replicate m none⟩ : Group)).map f) = groups := by
    intro f hf
    rw [List.map_map]
    conv_rhs => rw [← List.map_id groups]
    exact List.map_congr_left fun g _ => hf g
  refine ⟨?_, ?_, ?_, ?_, ?_, ?_, ?_, ?_, ?_, ?_, ?_⟩
  · rw [hmap _ fun _ => rfl]
    refine ⟨.inr ⟨rfl, hne, .inr ⟨m, hg⟩⟩, fun g hgm h0 => ?_⟩
    have := hg g hgm
    rw [h0] at this
    simp at this
    omega
  · intro g hgm
    obtain ⟨l, hl, rfl⟩ := List.mem_map.mp hgm
    simp [hg l hl]
  · rw [hmap _ fun _ => rfl, hmap _ fun _ => rfl]
    rfl
  · rw [hmap _ fun _ => rfl, hmap _ fun _ => rfl]
    rfl
  · intro g hgm
    obtain ⟨l, hl, rfl⟩ := List.mem_map.mp hgm
    simp [hg l hl, hm]
  · intro g hgm
    obtain ⟨l, hl, rfl⟩ := List.mem_map.mp hgm
    simp [hg l hl]
  · intro g hgm
    obtain ⟨l, hl, rfl⟩ := List.mem_map.mp hgm
    simp [hg l hl]
  · exact ⟨hn, rfl⟩
  · exact ⟨_, hn, rfl⟩
  · intro v hv
    simp at hv
    obtain ⟨_, _, rfl⟩ := hv
    rfl
  · intro v hv
    simp at hv
    obtain ⟨_, _, rfl⟩ := hv
    rfl

end BTA.Align.Props
