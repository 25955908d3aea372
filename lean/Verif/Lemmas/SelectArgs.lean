import Verif.Spec.SelectArgs
/- Lemmas about the arguments of `select_tracks`. -/
namespace BTA.SelArgs.Lemmas
open BTA.SelArgs BTA.Spec.SelArgs

theorem numbers_eq : ∀ l : List Entry, l.all isNumber = true → l = (l.filterMap theNumber).map Entry.number
  | [], _ => rfl
  | e :: r, h => by
    rw [List.all_cons, Bool.and_eq_true] at h
    cases e with
    | none => exact absurd h.1 (by simp [isNumber])
    | list l => exact absurd h.1 (by simp [isNumber])
    | number i =>
      have := numbers_eq r h.2
      rw [List.filterMap_cons]
      simp only [theNumber, List.map_cons]
      rw [← this]

theorem lists_eq : ∀ l : List Entry, l.any isNumber = false → l = (l.map theList).map fun o => o.elim Entry.none Entry.list
  | [], _ => rfl
  | e :: r, h => by
    rw [List.any_cons, Bool.or_eq_false_iff] at h
    have := lists_eq r h.2
    rw [List.map_cons, List.map_cons, ← this]
    cases e with
    | number i => exact absurd h.1 (by simp [isNumber])
    | none => rfl
    | list l => rfl

theorem filterMap_number (l : List Int) : (l.map Entry.number).filterMap theNumber = l := by
  rw [List.filterMap_map]
  have : theNumber ∘ Entry.number = some := rfl
  rw [this, List.filterMap_some]

theorem expand_ok {n : Nat} (hn : n ≠ 0) (a : Arg) (ls : List (Option (List Int))) : expand n a = .ok ls ↔ ListMeans n a ls := by
  constructor
  · intro h
    cases a with
    | none =>
      have := Except.ok.inj h
      subst this
      exact .nothing
    | scalar => cases h
    | entries l =>
      unfold expand at h
      dsimp only at h
      split at h
      · cases h
      · rename_i hne
        split at h
        · rename_i hall
          have h' := Except.ok.inj h
          subst h'
          have hl := numbers_eq l hall
          have hne' : l.filterMap theNumber ≠ [] := by
            intro he
            rw [he] at hl
            exact hne hl
          have := ListMeans.same (n := n) (l.filterMap theNumber) hne'
          rw [← hl] at this
          exact this
        · split at h
          · cases h
          · rename_i hany
            split at h
            · cases h
            · rename_i hlen
              have h' := Except.ok.inj h
              subst h'
              have hl := lists_eq l (by simpa using hany)
              have := ListMeans.each (n := n) (l.map theList) (by simpa using hne) (by rw [List.length_map]; omega)
              rw [← hl] at this
              exact this
  · intro h
    cases h with
    | nothing => rfl
    | same l hl =>
      unfold expand
      dsimp only
      rw [if_neg (by simpa using hl), if_pos (by simp [isNumber]), filterMap_number]
    | each _ hl hlen =>
      unfold expand
      dsimp only
      have hnot : ∀ o : Option (List Int), isNumber (o.elim Entry.none Entry.list) = false := by
        intro o; cases o <;> rfl
      have e : (ls.map fun o => o.elim Entry.none Entry.list).map theList = ls := by
        rw [List.map_map]
        conv_rhs => rw [← List.map_id ls]
        apply List.map_congr_left
        intro o _
        cases o <;> rfl
      rw [if_neg (by simpa using hl), if_neg, if_neg, if_neg (by rw [List.length_map]; omega), e]
      · simp [hnot]
      · cases ls with
        | nil => exact absurd rfl hl
        | cons o r => simp [hnot]

theorem listMeans_length {n : Nat} {a : Arg} {ls : List (Option (List Int))} (h : ListMeans n a ls) : ls.length = n := by
  cases h with
  | nothing => simp
  | same => simp
  | each _ _ h => exact h

theorem somes : ∀ {T : Type} (l : List (Option T)), l.any Option.isNone = false → l = (l.filterMap id).map some
  | _, [], _ => rfl
  | _, none :: r, h => absurd h (by simp)
  | _, some x :: r, h => by
    have := somes r (by simpa using h)
    change some x :: r = some x :: (r.filterMap id).map some
    rw [← this]

theorem filterMap_somes {T : Type} (l : List T) : (l.map some).filterMap id = l := by
  rw [List.filterMap_map]
  exact List.filterMap_some

theorem queries_ok (n : Nat) (q : Query) (ss : List String) : queries n q = .ok ss ↔ QueryMeans n q ss := by
  constructor
  · intro h
    cases q with
    | none => have := Except.ok.inj h; subst this; exact .nothing
    | one s => have := Except.ok.inj h; subst this; exact .same s
    | each l =>
      unfold queries at h
      dsimp only at h
      split at h
      · cases h
      · rename_i hany
        split at h
        · cases h
        · rename_i hlen
          have h' := Except.ok.inj h
          subst h'
          have hl := somes l (Bool.not_eq_true _ ▸ hany)
          have hlen' : (l.filterMap id).length = n := by
            have := congrArg List.length hl
            rw [List.length_map] at this
            omega
          have := QueryMeans.each (n := n) (l.filterMap id) hlen'
          rw [← hl] at this
          exact this
  · intro h
    cases h with
    | nothing => rfl
    | same s => rfl
    | each _ hlen =>
      unfold queries
      dsimp only
      rw [if_neg (by simp), if_neg (by rw [List.length_map]; omega), filterMap_somes]

theorem queryMeans_length {n : Nat} {q : Query} {ss : List String} (h : QueryMeans n q ss) : ss.length = n := by
  cases h with
  | nothing => simp
  | same => simp
  | each _ h => exact h

theorem duts_ok (d : Duts) (ds : List Int) : duts d = .ok ds ↔ ds ≠ [] ∧ d = .each (ds.map some) := by
  constructor
  · intro h
    cases d with
    | scalar => cases h
    | each l =>
      unfold duts at h
      dsimp only at h
      split at h
      · cases h
      · rename_i hne
        split at h
        · cases h
        · rename_i hany
          have h' := Except.ok.inj h
          subst h'
          have hl := somes l (Bool.not_eq_true _ ▸ hany)
          refine ⟨?_, by rw [← hl]⟩
          intro he
          rw [he] at hl
          exact hne hl
  · rintro ⟨hne, rfl⟩
    unfold duts
    dsimp only
    rw [if_neg (by simpa using hne), if_neg (by simp), filterMap_somes]

theorem build_self : ∀ l : List Setting, build (l.map Setting.dut) (l.map Setting.hit) (l.map Setting.noHit) (l.map Setting.quality)
    (l.map Setting.isoTrack) (l.map Setting.isoHit) (l.map Setting.query) = l
  | [] => rfl
  | s :: r => by
    simp only [List.map_cons, build]
    rw [build_self r]

theorem build_maps : ∀ (ds : List Int) (hs ns qs ts is : List (Option (List Int))) (ss : List String), hs.length = ds.length → ns.length = ds.length →
    qs.length = ds.length → ts.length = ds.length → is.length = ds.length → ss.length = ds.length →
    (build ds hs ns qs ts is ss).map Setting.dut = ds ∧ (build ds hs ns qs ts is ss).map Setting.hit = hs ∧
    (build ds hs ns qs ts is ss).map Setting.noHit = ns ∧ (build ds hs ns qs ts is ss).map Setting.quality = qs ∧
    (build ds hs ns qs ts is ss).map Setting.isoTrack = ts ∧ (build ds hs ns qs ts is ss).map Setting.isoHit = is ∧
    (build ds hs ns qs ts is ss).map Setting.query = ss
  | [], hs, ns, qs, ts, is, ss, h1, h2, h3, h4, h5, h6 => by
    simp only [List.length_nil, List.length_eq_zero_iff] at h1 h2 h3 h4 h5 h6
    subst h1 h2 h3 h4 h5 h6
    simp [build]
  | d :: ds, hs, ns, qs, ts, is, ss, h1, h2, h3, h4, h5, h6 => by
    obtain ⟨a, as, rfl⟩ := List.exists_cons_of_length_eq_add_one (by rw [h1, List.length_cons] : hs.length = ds.length + 1)
    obtain ⟨b, bs, rfl⟩ := List.exists_cons_of_length_eq_add_one (by rw [h2, List.length_cons] : ns.length = ds.length + 1)
    obtain ⟨c, cs, rfl⟩ := List.exists_cons_of_length_eq_add_one (by rw [h3, List.length_cons] : qs.length = ds.length + 1)
    obtain ⟨e, es, rfl⟩ := List.exists_cons_of_length_eq_add_one (by rw [h4, List.length_cons] : ts.length = ds.length + 1)
    obtain ⟨f, fs, rfl⟩ := List.exists_cons_of_length_eq_add_one (by rw [h5, List.length_cons] : is.length = ds.length + 1)
    obtain ⟨q, qss, rfl⟩ := List.exists_cons_of_length_eq_add_one (by rw [h6, List.length_cons] : ss.length = ds.length + 1)
    simp only [List.length_cons, Nat.add_right_cancel_iff] at h1 h2 h3 h4 h5 h6
    obtain ⟨g1, g2, g3, g4, g5, g6, g7⟩ := build_maps ds as bs cs es fs qss h1 h2 h3 h4 h5 h6
    simp only [build, List.map_cons, g1, g2, g3, g4, g5, g6, g7, and_self]

theorem clash_iff (a b : Option (List Int)) : clash a b = false ↔ ∀ d ∈ b.getD [], d ∉ a.getD [] := by
  cases a with
  | none => simp [clash]
  | some a =>
    cases b with
    | none => simp [clash]
    | some b =>
      simp only [clash, Option.getD_some, List.any_eq_false, decide_eq_true_eq]
      exact ⟨fun h d hd hd' => h d hd' hd, fun h d hd hd' => h d hd' hd⟩

theorem checkClash_ok (l : List Setting) : checkClash (l.map Setting.noHit) (l.map Setting.hit) = .ok () ↔
    ∀ s ∈ l, ∀ d ∈ s.hit.getD [], d ∉ s.noHit.getD [] := by
  have e : List.zipWith clash (l.map Setting.noHit) (l.map Setting.hit) = l.map fun s => clash s.noHit s.hit := by
    induction l with
    | nil => rfl
    | cons s r ih => simp only [List.map_cons, List.zipWith_cons_cons, ih]
  unfold checkClash
  rw [e]
  by_cases h : (l.map fun s => clash s.noHit s.hit).any id = true
  · rw [if_pos h]
    constructor
    · intro h'; cases h'
    · intro h'
      obtain ⟨b, hb, hb'⟩ := List.any_eq_true.mp h
      obtain ⟨s, hs, rfl⟩ := List.mem_map.mp hb
      have := (clash_iff s.noHit s.hit).mpr (h' s hs)
      rw [id, this] at hb'
      cases hb'
  · rw [if_neg h]
    refine ⟨fun _ s hs => ?_, fun _ => rfl⟩
    rw [Bool.not_eq_true, List.any_eq_false] at h
    have := h _ (List.mem_map_of_mem hs)
    exact (clash_iff _ _).mp (by simpa using this)

theorem settings_split (a : Args) (l : List Setting) : settings a = .ok l ↔ ∃ ds hs ns qs ts is ss, duts a.select = .ok ds ∧ expand ds.length a.hit = .ok hs ∧
    expand ds.length a.noHit = .ok ns ∧ checkClash ns hs = .ok () ∧ expand ds.length a.quality = .ok qs ∧ expand ds.length a.isoTrack = .ok ts ∧
    expand ds.length a.isoHit = .ok is ∧ queries ds.length a.query = .ok ss ∧ l = build ds hs ns qs ts is ss := by
  constructor
  · intro h
    unfold settings at h
    simp only [bind, Except.bind, pure, Except.pure] at h
    split at h
    · cases h
    split at h
    · cases h
    split at h
    · cases h
    split at h
    · cases h
    split at h
    · cases h
    split at h
    · cases h
    split at h
    · cases h
    split at h
    · cases h
    exact ⟨_, _, _, _, _, _, _, by assumption, by assumption, by assumption, by assumption, by assumption, by assumption, by assumption, by assumption,
      (Except.ok.inj h).symm⟩
  · rintro ⟨ds, hs, ns, qs, ts, is, ss, h1, h2, h3, h4, h5, h6, h7, h8, rfl⟩
    unfold settings
    simp only [bind, Except.bind, pure, Except.pure, h1, h2, h3, h4, h5, h6, h7, h8]

theorem settings_ok (a : Args) (l : List Setting) : settings a = .ok l ↔ Means a l := by
  rw [settings_split]
  constructor
  · rintro ⟨ds, hs, ns, qs, ts, is, ss, h1, h2, h3, h4, h5, h6, h7, h8, rfl⟩
    rw [duts_ok] at h1
    obtain ⟨hne, hsel⟩ := h1
    have hn : ds.length ≠ 0 := fun h => hne (List.length_eq_zero_iff.mp h)
    rw [expand_ok hn] at h2 h3 h5 h6 h7
    rw [queries_ok] at h8
    obtain ⟨g1, g2, g3, g4, g5, g6, g7⟩ := build_maps ds hs ns qs ts is ss (listMeans_length h2) (listMeans_length h3) (listMeans_length h5)
      (listMeans_length h6) (listMeans_length h7) (queryMeans_length h8)
    have hlen : (build ds hs ns qs ts is ss).length = ds.length := by rw [← List.length_map (f := Setting.dut), g1]
    refine ⟨⟨?_, ?_⟩, ?_, ?_, ?_, ?_, ?_, ?_, ?_⟩
    · intro h
      rw [h] at hlen
      exact hn hlen.symm
    · rw [hsel]
      congr 1
      have : (fun s : Setting => some s.dut) = some ∘ Setting.dut := rfl
      rw [this, ← List.map_map, g1]
    · rw [hlen, g2]; exact h2
    · rw [hlen, g3]; exact h3
    · rw [hlen, g4]; exact h5
    · rw [hlen, g5]; exact h6
    · rw [hlen, g6]; exact h7
    · rw [hlen, g7]; exact h8
    · rw [← checkClash_ok, g2, g3]; exact h4
  · intro h
    have hn : l.length ≠ 0 := fun h' => h.select.1 (List.length_eq_zero_iff.mp h')
    have hl : (l.map Setting.dut).length = l.length := List.length_map _
    refine ⟨l.map Setting.dut, l.map Setting.hit, l.map Setting.noHit, l.map Setting.quality, l.map Setting.isoTrack, l.map Setting.isoHit,
      l.map Setting.query, ?_, ?_, ?_, ?_, ?_, ?_, ?_, ?_, (build_self l).symm⟩
    · rw [duts_ok]
      refine ⟨by simpa using h.select.1, ?_⟩
      rw [h.select.2, List.map_map]
      rfl
    · rw [hl, expand_ok hn]; exact h.hit
    · rw [hl, expand_ok hn]; exact h.noHit
    · rw [checkClash_ok]; exact h.consistent
    · rw [hl, expand_ok hn]; exact h.quality
    · rw [hl, expand_ok hn]; exact h.isoTrack
    · rw [hl, expand_ok hn]; exact h.isoHit
    · rw [hl, queries_ok]; exact h.query

end BTA.SelArgs.Lemmas
