import Verif.Lemmas.ApplyAlignment
/-
C79: conversion of a file to global coordinates. C80: the way back. C81: tracks and hits keep their distances. C82: errors.
-/
namespace BTA.Apply
open BTA.Geo BTA.Dut BTA.Spec BTA.Apply.Spec

variable {α : Type}

theorem forall₂_map_right {A B : Type} {R : A → B → Prop} (f : A → B) (l : List A) (h : ∀ a ∈ l, R a (f a)) : List.Forall₂ R l (l.map f) := by
  induction l with
  | nil => exact .nil
  | cons a l ih => exact .cons (h a (by simp)) (ih fun a ha => h a (by simp [ha]))

theorem converted_rowSteps (args : Args) (h : args.toGlobal = true) (duts : List Alignment) (node : Node α) (r : Row α) :
    Converted (beamOf args) duts node r (rowSteps args.toGlobal (chunkAssignments args duts node) r) := by
  have hcol : ∀ (c : Col) (i : Nat), c.dut? = some i → ∀ k, k < duts.length → owns node k c = true → k = i := by
    intro c i hc k _ hk
    unfold owns at hk
    rw [hc] at hk
    simpa using hk
  have hown : ∀ (c : Col) (i : Nat), c.dut? = some i → owns node i c = true := by
    intro c i hc
    unfold owns
    rw [hc]; simp
  have key : ∀ (c : Col) (i : Nat) (a : Alignment), c.dut? = some i → duts[i]? = some a → active node c = true →
      (rowSteps args.toGlobal (chunkAssignments args duts node) r).pos c = (r.pos c).map (forward (beamOf args) a c) := by
    intro c i a hc ha hact
    rw [rowSteps_col args duts node r c i (hcol c i hc), ha]
    dsimp only
    rw [hown c i hc, hact]
    simp only [Bool.and_self, if_true]
    congr 1
    funext p
    rw [h]
    exact foldl_forward args h a c p
  have unk : ∀ (c : Col) (i : Nat), c.dut? = some i → duts.length ≤ i →
      (rowSteps args.toGlobal (chunkAssignments args duts node) r).pos c = r.pos c := by
    intro c i hc hi
    rw [rowSteps_col args duts node r c i (hcol c i hc), List.getElem?_eq_none hi]
  have tr : ∀ c, (∀ i, c ≠ .hit i) → active node c = (occurs "Tracks" node.name && node.has c) := by
    intro c hc
    cases c with
    | hit i => exact absurd rfl (hc i)
    | offsetDut i => rfl
    | slopeDut i => rfl
    | err i => rfl
    | offset => rfl
    | slope => rfl
  refine ⟨(rowSteps_other _ _ _).1, (rowSteps_other _ _ _).2, ?_, ?_, ?_, ?_, ?_, ?_⟩
  · exact fun i a ha => key (.hit i) i a rfl ha rfl
  · exact fun ht i a ha hc => key (.offsetDut i) i a rfl ha (by rw [tr _ (by simp), (occurs_tracks node).mpr ht, hc]; rfl)
  · exact fun ht i a ha hc => key (.slopeDut i) i a rfl ha (by rw [tr _ (by simp), (occurs_tracks node).mpr ht, hc]; rfl)
  · exact fun ht i a ha hc => key (.err i) i a rfl ha (by rw [tr _ (by simp), (occurs_tracks node).mpr ht, hc]; rfl)
  · intro ht c hc
    have hf : (chunkAssignments args duts node).filter (fun s => decide (s.2.col = c)) = [] := by
      rw [List.filter_eq_nil_iff]
      intro s hs
      obtain ⟨a, i, beam, -, -, hm⟩ := chunkAssignments_mem args duts node s hs
      have hn : occurs "Tracks" node.name = false := by
        rw [← Bool.not_eq_true]; exact fun h => ht ((occurs_tracks node).mp h)
      simp only [assignments, hn, Bool.false_eq_true, if_false, List.mem_singleton] at hm
      rw [hm]
      simpa using fun h => hc i h.symm
    rw [rowSteps_pos]
    unfold along
    rw [hf]
    cases r.pos c <;> rfl
  · exact fun i hi => ⟨unk _ i rfl hi, unk _ i rfl hi, unk _ i rfl hi, unk _ i rfl hi⟩

theorem track_rowSteps (args : Args) (h : args.toGlobal = true) (duts : List Alignment) (node : Node α) (r : Row α) (k : Nat)
    (a : Alignment) (hn : duts.length ≤ 10) (ha : duts[k]? = some a) (ht : TracksOf node k) (h1 : node.has .offset = true)
    (h2 : node.has .slope = true) : TrackConverted (beamOf args) a r (rowSteps args.toGlobal (chunkAssignments args duts node) r) := by
  have hk : k < duts.length := by
    by_contra hk
    rw [List.getElem?_eq_none (by omega)] at ha
    simp at ha
  have key : ∀ c : Col, c.dut? = none → node.has c = true →
      (rowSteps args.toGlobal (chunkAssignments args duts node) r).pos c = (r.pos c).map (forward (beamOf args) a c) := by
    intro c hc hh
    rw [rowSteps_col args duts node r c k
      (fun i hi ho => by rw [owns_track node k duts.length ht hn hk c hc i hi] at ho; simpa using ho), ha]
    dsimp only
    have e1 : owns node k c = true := by rw [owns_track node k duts.length ht hn hk c hc k hk]; simp
    have e2 : active node c = true := by
      cases c with
      | hit i => rfl
      | offsetDut i => simp [Col.dut?] at hc
      | slopeDut i => simp [Col.dut?] at hc
      | err i => simp [Col.dut?] at hc
      | offset => simp [active, (occurs_tracks node).mpr (tracksOf_isTracks node k ht), hh]
      | slope => simp [active, (occurs_tracks node).mpr (tracksOf_isTracks node k ht), hh]
    rw [e1, e2]
    simp only [Bool.and_self, if_true]
    congr 1
    funext p
    rw [h]
    exact foldl_forward args h a c p
  exact ⟨key .offset rfl h1, key .slope rfl h2⟩

/-! ### C79 -/

/-- C79 (partial): after `apply_alignment` to global coordinates the new file has the same tables with the same columns and rows, in
which the coordinates of hits, of track offsets and of track slopes are converted with the alignment of their DUT, then with the
alignment of the telescope if `align_to_beam` is set; the errors are converted as in C82. Everything else is unchanged. The track of
a track table (columns offset_x, slope_x, ...) is converted with the alignment of the DUT of this table, if there are at most ten DUTs.
Missing: more than ten DUTs, see `C79_eleven_duts`. -/
theorem C79_global_partial (args : Args) (hg : args.toGlobal = true) (hcs : 0 < args.chunkSize) (duts : List Alignment)
    (nodes out : List (Node α)) (hs : ∀ n ∈ nodes, SortedBy Row.event n.rows) (h : applyAlignment args duts nodes = .ok out) :
    List.Forall₂ (fun n n' => n'.name = n.name ∧ n'.has = n.has ∧
        List.Forall₂ (Converted (if args.alignToBeam then some args.telescope else none) duts n) n.rows n'.rows ∧
        (∀ k a, duts.length ≤ 10 → duts[k]? = some a → TracksOf n k → n.has .offset = true → n.has .slope = true →
          List.Forall₂ (TrackConverted (if args.alignToBeam then some args.telescope else none) a) n.rows n'.rows))
      nodes out := by
  rw [applyAlignment_iff] at h
  induction h with
  | nil => exact .nil
  | cons h1 _ ih =>
    refine .cons ?_ (ih fun n hn => hs n (by simp [hn]))
    obtain ⟨e1, e2, -, -, e3⟩ := applyNode_ok (hs _ (by simp)) hcs h1
    refine ⟨e1, e2, ?_, ?_⟩
    · rw [e3]
      exact forall₂_map_right _ _ fun r _ => converted_rowSteps args hg duts _ r
    · intro k a hn ha ht o1 o2
      rw [e3]
      exact forall₂_map_right _ _ fun r _ => track_rowSteps args hg duts _ r k a hn ha ht o1 o2

/-- C79: the call succeeds if the tables have hit columns for all DUTs, all hits are on their sensors, the events are sorted and each
event has fewer rows than the chunk size. -/
theorem C79_success (args : Args) (hg : args.toGlobal = true) (hcs : 0 < args.chunkSize) (duts : List Alignment) (nodes : List (Node α))
    (hs : ∀ n ∈ nodes, SortedBy Row.event n.rows) (hm : ∀ n ∈ nodes, ∀ e, multiplicity Row.event n.rows e < args.chunkSize)
    (hc : ∀ n ∈ nodes, ∀ i, i < duts.length → n.has (.hit i) = true) (hz : ∀ n ∈ nodes, ∀ r ∈ n.rows, HitsOnSensor duts r) :
    ∃ out, applyAlignment args duts nodes = .ok out := by
  refine ⟨nodes.map fun n => { n with rows := n.rows.map (rowSteps args.toGlobal (chunkAssignments args duts n)) }, ?_⟩
  rw [applyAlignment_iff]
  apply forall₂_map_right
  intro n hn
  apply applyNode_exists (hs n hn) hcs (hm n hn) ((has_iff args duts n).mpr (hc n hn))
  intro r hr
  rw [passesAll_hits]
  intro i a ha
  rw [hg, passes_forward args hg]
  intro p hp
  refine hz n hn r hr i p ?_ hp
  by_contra hi
  rw [List.getElem?_eq_none (by omega)] at ha
  simp at ha

/-- C79: otherwise it raises: a successful call means that all hits are on their sensors, and that all non-empty tables have the hit
columns of all DUTs. -/
theorem C79_refused (args : Args) (hg : args.toGlobal = true) (hcs : 0 < args.chunkSize) (duts : List Alignment)
    (nodes out : List (Node α)) (hs : ∀ n ∈ nodes, SortedBy Row.event n.rows) (h : applyAlignment args duts nodes = .ok out) :
    ∀ n ∈ nodes, (∀ r ∈ n.rows, HitsOnSensor duts r) ∧ (n.rows ≠ [] → ∀ i, i < duts.length → n.has (.hit i) = true) := by
  rw [applyAlignment_iff] at h
  induction h with
  | nil => simp
  | cons h1 _ ih =>
    intro n hn
    rcases List.mem_cons.mp hn with rfl | hn
    · obtain ⟨-, -, e3, e4, -⟩ := applyNode_ok (hs _ (by simp)) hcs h1
      refine ⟨?_, fun hne => (has_iff args duts _).mp (e4 hne)⟩
      intro r hr i p hi hp
      have := (passesAll_hits args duts _ r).mp (e3 r hr) i duts[i] (List.getElem?_eq_getElem hi)
      rw [hg, passes_forward args hg] at this
      exact this p hp
    · exact ih (fun n hn => hs n (by simp [hn])) n hn

/-- A file with one track table for examples. -/
noncomputable def exNode (name : String) (pos : Col → Option Vec3) : Node Unit := ⟨name, fun _ => true, [⟨7, pos, ()⟩]⟩

/-- Two DUTs and a telescope, all turned. -/
example : ∃ out : List (Node Unit), applyAlignment ⟨true, ⟨1, 0, 0, 0, 0.1, 0⟩, true, 10⟩ [⟨0, 0, 0, 0, 0, 0.5⟩, ⟨3, 4, 100, 0.2, 0, 0⟩]
    [exNode "Tracks_DUT1" fun _ => some ![5, 6, 0]] = .ok out := by
  apply C79_success _ rfl (by decide)
  · simp [exNode, SortedBy]
  · simp only [List.mem_singleton, forall_eq, exNode, BTA.Spec.multiplicity]
    intro e
    exact lt_of_le_of_lt (List.length_filter_le _ _) (by simp)
  · simp [exNode]
  · simp [exNode, HitsOnSensor]

/-- Ten identical DUTs, then another one. -/
theorem eleven_owns (node : Node α) (h : TracksOf node 10) (hh : node.has .offset = true) (args : Args) (hb : calls args = [none])
    (duts : List Alignment) (hl : duts.length = 11) :
    ∃ a b, duts[1]? = some a ∧ duts[10]? = some b ∧
      (chunkAssignments args duts node).filter (fun s => decide (s.2.col = .offset)) =
        [(a, ⟨.offset, fullOverride a, false⟩), (b, ⟨.offset, fullOverride b, false⟩)] := by
  have hdut : ∀ i < 11, occurs ("DUT" ++ toString i) node.name = decide (i = 1 ∨ i = 10) := by
    rw [h]
    decide +kernel
  have htr : occurs "Tracks" node.name = true := (occurs_tracks node).mpr (tracksOf_isTracks node 10 h)
  refine ⟨duts[1], duts[10], List.getElem?_eq_getElem _, List.getElem?_eq_getElem _, ?_⟩
  unfold chunkAssignments
  rw [hb]
  simp only [List.flatMap_cons, List.flatMap_nil, List.append_nil, List.filter_flatMap]
  have key : ∀ p ∈ duts.zipIdx, ((assignments node p.1 none p.2).map fun a => (p.1, a)).filter (fun s => decide (s.2.col = .offset)) =
      if p.2 = 1 ∨ p.2 = 10 then [(p.1, ⟨.offset, fullOverride p.1, false⟩)] else [] := by
    rintro ⟨a, i⟩ hp
    have := List.mem_zipIdx hp
    rw [List.filter_map]
    have e : ((fun s : Alignment × Assignment => decide (s.2.col = .offset)) ∘ fun x => (a, x)) = fun s => decide (s.col = .offset) := rfl
    dsimp only
    rw [e, assignments_filter]
    dsimp only
    rw [hdut i (by omega), htr, hh]
    by_cases hi : i = 1 ∨ i = 10 <;> simp [hi]
  rw [List.flatMap_congr key]
  match duts, hl with
  | [d0, d1, d2, d3, d4, d5, d6, d7, d8, d9, d10], _ => rfl

/-- C79 is false of the code for more than ten DUTs: in the track table of DUT 10 (the eleventh), the offset of the track is converted
with the alignment of DUT 1 and then with that of DUT 10, because the name of DUT 1 is part of the name of DUT 10. -/
theorem C79_eleven_duts (args : Args) (hg : args.toGlobal = true) (hb : args.alignToBeam = false) (hcs : 0 < args.chunkSize)
    (duts : List Alignment) (hl : duts.length = 11) (n n' : Node α) (hn : TracksOf n 10) (ho : n.has .offset = true)
    (hs : SortedBy Row.event n.rows) (h : applyAlignment args duts [n] = .ok [n']) :
    ∃ a b, duts[1]? = some a ∧ duts[10]? = some b ∧
      List.Forall₂ (fun r r' : Row α => r'.pos .offset = (r.pos .offset).map fun p => moved b (moved a p)) n.rows n'.rows := by
  rw [applyAlignment_iff, List.forall₂_cons] at h
  obtain ⟨-, -, -, -, e3⟩ := applyNode_ok hs hcs h.1
  have hcalls : calls args = [none] := by rw [calls_forward args hg]; simp [beamOf, hb]
  obtain ⟨a, b, ha, hb', hf⟩ := eleven_owns n hn ho args hcalls duts hl
  refine ⟨a, b, ha, hb', ?_⟩
  rw [e3]
  apply forall₂_map_right
  intro r _
  rw [rowSteps_pos]
  unfold along
  rw [hf, hg]
  rfl

example : ∃ n', applyAlignment ⟨true, ⟨0, 0, 0, 0, 0, 0⟩, false, 10⟩ (List.replicate 11 ⟨1, 0, 0, 0, 0, 0⟩)
    [exNode "Tracks_DUT10" fun _ => some ![5, 6, 0]] = .ok [n'] := by
  obtain ⟨out, h⟩ := C79_success ⟨true, ⟨0, 0, 0, 0, 0, 0⟩, false, 10⟩ rfl (by decide) (List.replicate 11 ⟨1, 0, 0, 0, 0, 0⟩)
    [exNode "Tracks_DUT10" fun _ => some ![5, 6, 0]] (by simp [exNode, SortedBy])
    (by
      simp only [List.mem_singleton, forall_eq, exNode, BTA.Spec.multiplicity]
      intro e
      exact lt_of_le_of_lt (List.length_filter_le _ _) (by simp))
    (by simp [exNode]) (by simp [exNode, HitsOnSensor])
  have h2 := h
  rw [applyAlignment_iff, List.forall₂_cons_left_iff] at h2
  obtain ⟨n', u, -, h3, rfl⟩ := h2
  rw [List.forall₂_nil_left_iff] at h3
  subst h3
  exact ⟨n', h⟩

/-! ### C80 -/

/-- C80 (partial): converting a file to global coordinates and back (same telescope, same `align_to_beam`, any chunk sizes above the
number of rows of an event) succeeds and restores all tables. Missing: the error columns, which are not restored
(`C80_errors_changed`), and more than ten DUTs. -/
theorem C80_round_trip_partial (args back : Args) (hg : args.toGlobal = true) (hb : back.toGlobal = false)
    (ht : back.telescope = args.telescope) (ha : back.alignToBeam = args.alignToBeam) (hcs : 0 < args.chunkSize)
    (hcs' : 0 < back.chunkSize) (duts : List Alignment) (hl : duts.length ≤ 10) (nodes out : List (Node α))
    (hk : ∀ n ∈ nodes, KnownTable duts.length n)
    (hc : ∀ n ∈ nodes, ∀ i, i < duts.length → n.has (.hit i) = true)
    (hs : ∀ n ∈ nodes, SortedBy Row.event n.rows) (hm : ∀ n ∈ nodes, ∀ e, multiplicity Row.event n.rows e < back.chunkSize)
    (h : applyAlignment args duts nodes = .ok out) :
    ∃ restored, applyAlignment back duts out = .ok restored ∧ List.Forall₂ SameButErrors nodes restored := by
  have hbeam : beamOf back = beamOf args := by unfold beamOf; rw [ht, ha]
  rw [applyAlignment_iff] at h
  induction h with
  | nil => exact ⟨[], rfl, .nil⟩
  | @cons n n' _ _ h1 _ ih =>
    obtain ⟨restored, i1, i2⟩ := ih (fun n hn => hk n (by simp [hn])) (fun n hn => hc n (by simp [hn])) (fun n hn => hs n (by simp [hn]))
      (fun n hn => hm n (by simp [hn]))
    have hs1 := hs n (by simp)
    obtain ⟨e1, e2, e3, -, e5⟩ := applyNode_ok hs1 hcs h1
    have hev : n'.rows.map Row.event = n.rows.map Row.event := by
      rw [e5, List.map_map]
      exact List.map_congr_left fun r _ => (rowSteps_other _ _ _).1
    have hs2 : SortedBy Row.event n'.rows := by
      unfold SortedBy at hs1 ⊢
      rw [← List.pairwise_map (f := Row.event) (R := fun a b => a ≤ b)] at hs1 ⊢
      rw [hev]; exact hs1
    have hm2 : ∀ e, multiplicity Row.event n'.rows e < back.chunkSize := by
      intro e
      have : multiplicity Row.event n'.rows e = multiplicity Row.event n.rows e := by
        rw [e5]
        unfold BTA.Spec.multiplicity
        rw [List.filter_map, List.length_map]
        congr 2
        funext r
        simp [(rowSteps_other _ _ _).1]
      rw [this]; exact hm n (by simp) e
    have hcv := fun r => converted_rowSteps args hg duts n r
    -- the way back of a row
    have hpass : ∀ r' ∈ n'.rows, PassesAll back.toGlobal (chunkAssignments back duts n') r' := by
      intro r' hr'
      rw [e5] at hr'
      obtain ⟨r, hr, rfl⟩ := List.mem_map.mp hr'
      rw [passesAll_hits]
      intro i a hi
      rw [(hcv r).hits i a hi, hb]
      have := passes_backward back hb a i (r.pos (.hit i))
      rw [hbeam] at this
      refine this.mpr ?_
      have h0 := (passesAll_hits args duts n r).mp (e3 r hr) i a hi
      rw [hg, passes_forward args hg] at h0
      exact h0
    have hhas : ∀ s ∈ chunkAssignments back duts n', n'.has s.2.col = true := by
      rw [has_iff, e2]; exact hc n (by simp)
    refine ⟨_ :: restored, (applyAlignment_iff _ _ _ _).mpr (.cons (applyNode_exists hs2 hcs' hm2 hhas hpass)
      ((applyAlignment_iff _ _ _ _).mp i1)), .cons ⟨e1, e2, ?_⟩ i2⟩
    rw [e5, List.map_map]
    apply forall₂_map_right
    intro r _
    refine ⟨?_, ?_, ?_⟩
    · simp only [Function.comp_apply]; rw [(rowSteps_other _ _ _).1, (rowSteps_other _ _ _).1]
    · simp only [Function.comp_apply]; rw [(rowSteps_other _ _ _).2, (rowSteps_other _ _ _).2]
    · intro c hcne
      simp only [Function.comp_apply]
      -- a column with one owner
      have one : ∀ i, (∀ k, k < duts.length → owns n k c = true → k = i) →
          (rowSteps back.toGlobal (chunkAssignments back duts n') (rowSteps args.toGlobal (chunkAssignments args duts n) r)).pos c = r.pos c := by
        intro i hi
        have howns : ∀ k, owns n' k c = owns n k c := by intro k; unfold owns; rw [e1]
        have hact : active n' c = active n c := by unfold active; rw [e1, e2]
        rw [rowSteps_col back duts n' _ c i (by intro k hk ho; rw [howns] at ho; exact hi k hk ho), rowSteps_col args duts n r c i hi]
        cases hd : duts[i]? with
        | none => rfl
        | some a =>
          dsimp only
          rw [howns, hact]
          split
          · rw [Option.map_map]
            have : ((((calls back).map fun beam => (a, colAssignment c a beam)).foldl fun q s => fn back.toGlobal s q) ∘
                (((calls args).map fun beam => (a, colAssignment c a beam)).foldl fun q s => fn args.toGlobal s q)) = id := by
              funext p
              simp only [Function.comp_apply, id_eq]
              rw [hg, foldl_forward args hg, hb, ← hbeam, foldl_backward back hb a c hcne]
            rw [this, Option.map_id]; rfl
          · rfl
      cases hd : c.dut? with
      | some i =>
        apply one i
        intro k _ ho
        unfold owns at ho
        rw [hd] at ho
        simpa using ho
      | none =>
        rcases hk n (by simp) with hnt | ⟨k, hkl, hkt⟩
        · -- not converted at all
          have hnot : occurs "Tracks" n.name = false := by
            rw [← Bool.not_eq_true]; exact fun h => hnt ((occurs_tracks n).mp h)
          have hfree : ∀ (ar : Args) (m : Node α), m.name = n.name → ∀ q : Row α,
              (rowSteps ar.toGlobal (chunkAssignments ar duts m) q).pos c = q.pos c := by
            intro ar m hname q
            have hf : (chunkAssignments ar duts m).filter (fun s => decide (s.2.col = c)) = [] := by
              rw [List.filter_eq_nil_iff]
              intro s hs
              obtain ⟨a, i, beam, -, -, hm⟩ := chunkAssignments_mem ar duts m s hs
              rw [← hname] at hnot
              simp only [assignments, hnot, Bool.false_eq_true, if_false, List.mem_singleton] at hm
              rw [hm]
              intro hce
              simp only [decide_eq_true_eq] at hce
              rw [← hce] at hd
              simp [Col.dut?] at hd
            rw [rowSteps_pos]
            unfold along
            rw [hf]
            cases q.pos c <;> rfl
          rw [hfree back n' e1, hfree args n rfl]
        · apply one k
          intro i hi ho
          rw [owns_track n k duts.length hkt hl hkl c hd i hi] at ho
          simpa using ho

example : ∃ out restored : List (Node Unit),
    applyAlignment ⟨true, ⟨1, 0, 0, 0, 0.1, 0⟩, true, 10⟩ [⟨0, 0, 0, 0, 0, 0.5⟩, ⟨3, 4, 100, 0.2, 0, 0⟩]
      [exNode "Tracks_DUT1" fun _ => some ![5, 6, 0]] = .ok out ∧
    applyAlignment ⟨false, ⟨1, 0, 0, 0, 0.1, 0⟩, true, 5⟩ [⟨0, 0, 0, 0, 0, 0.5⟩, ⟨3, 4, 100, 0.2, 0, 0⟩] out = .ok restored := by
  have hm : ∀ cs, 1 < cs → ∀ n ∈ [exNode "Tracks_DUT1" fun _ => some ![5, 6, 0]], ∀ e, multiplicity Row.event n.rows e < cs := by
    intro cs hcs
    simp only [List.mem_singleton, forall_eq, exNode, BTA.Spec.multiplicity]
    intro e
    exact lt_of_le_of_lt (List.length_filter_le _ _) (by simpa using hcs)
  obtain ⟨out, h⟩ := C79_success ⟨true, ⟨1, 0, 0, 0, 0.1, 0⟩, true, 10⟩ rfl (by decide) [⟨0, 0, 0, 0, 0, 0.5⟩, ⟨3, 4, 100, 0.2, 0, 0⟩]
    [exNode "Tracks_DUT1" fun _ => some ![5, 6, 0]] (by simp [exNode, SortedBy]) (hm 10 (by decide)) (by simp [exNode])
    (by simp [exNode, HitsOnSensor])
  obtain ⟨restored, h1, -⟩ := C80_round_trip_partial ⟨true, ⟨1, 0, 0, 0, 0.1, 0⟩, true, 10⟩ ⟨false, ⟨1, 0, 0, 0, 0.1, 0⟩, true, 5⟩ rfl rfl rfl
    rfl (by decide) (by decide) _ (by simp) _ out (by simp only [List.mem_singleton, forall_eq]; exact .inr ⟨1, by simp, rfl⟩)
    (by simp [exNode]) (by simp [exNode, SortedBy]) (hm 5 (by decide)) h
  exact ⟨out, restored, h, h1⟩

/-- One row, one DUT: there and back. -/
theorem single_errors (a t : Alignment) (e : Vec3) (pos : Col → Option Vec3) (hp : pos (.hit 0) = none ∨ pos (.hit 0) = some ![0, 0, 0])
    (he : pos (.err 0) = some e) :
    ∃ out restored : List (Node Unit), applyAlignment ⟨true, t, false, 2⟩ [a] [exNode "Tracks_DUT0" pos] = .ok out ∧
      applyAlignment ⟨false, t, false, 2⟩ [a] out = .ok restored ∧
      out.map (fun n => n.rows.map fun r => r.pos (.err 0)) = [[some fun k => |turned a e k|]] ∧
      restored.map (fun n => n.rows.map fun r => r.pos (.err 0)) =
        [[some fun k => |(rotationMatrix a.alpha a.beta a.gamma).transpose.mulVec (fun j => |turned a e j|) k|]] := by
  have hm : ∀ n ∈ [exNode "Tracks_DUT0" pos], ∀ ev, BTA.Spec.multiplicity Row.event n.rows ev < 2 := by
    simp only [List.mem_singleton, forall_eq, exNode, BTA.Spec.multiplicity]
    intro ev
    exact lt_of_le_of_lt (List.length_filter_le _ _) (by simp)
  have hs : ∀ n ∈ [exNode "Tracks_DUT0" pos], SortedBy Row.event n.rows := by simp [exNode, SortedBy]
  obtain ⟨out, h⟩ := C79_success ⟨true, t, false, 2⟩ rfl two_pos [a] [exNode "Tracks_DUT0" pos] hs hm (by simp [exNode])
    (by
      simp only [List.mem_singleton, forall_eq, exNode, HitsOnSensor, List.length_singleton, Nat.lt_one_iff]
      rintro i p rfl
      rcases hp with hp | hp
      · rw [hp]; simp
      · rw [hp]; rintro h; injection h with h; subst h; simp)
  obtain ⟨restored, h1, -⟩ := C80_round_trip_partial ⟨true, t, false, 2⟩ ⟨false, t, false, 2⟩ rfl rfl rfl
    rfl two_pos two_pos [a] (by simp) _ out (by simp only [List.mem_singleton, forall_eq]; exact .inr ⟨0, by simp, rfl⟩)
    (by simp [exNode]) hs hm h
  refine ⟨out, restored, h, h1, ?_⟩
  rw [applyAlignment_iff, List.forall₂_cons_left_iff] at h
  obtain ⟨n', u, g1, g2, rfl⟩ := h
  rw [List.forall₂_nil_left_iff] at g2
  subst g2
  rw [applyAlignment_iff, List.forall₂_cons_left_iff] at h1
  obtain ⟨n'', u, g3, g4, rfl⟩ := h1
  rw [List.forall₂_nil_left_iff] at g4
  subst g4
  obtain ⟨a1, a2, -, -, a3⟩ := applyNode_ok (hs _ (by simp)) two_pos g1
  have hs2 : SortedBy Row.event n'.rows := by rw [a3]; simp [exNode, SortedBy]
  obtain ⟨b1, b2, -, -, b3⟩ := applyNode_ok hs2 two_pos g3
  have htr : ∀ n : Node Unit, n.name = "Tracks_DUT0" → occurs "Tracks" n.name = true := by
    intro n hn; rw [hn]; decide +kernel
  have f1 : ∀ r : Row Unit, r.pos (.err 0) = some e → (rowSteps true (chunkAssignments ⟨true, t, false, 2⟩ [a] (exNode "Tracks_DUT0" pos)) r).pos (.err 0) =
      some fun k => |turned a e k| := by
    intro r hr
    have := (converted_rowSteps ⟨true, t, false, 2⟩ rfl [a] (exNode "Tracks_DUT0" pos) r).errors
      (tracksOf_isTracks _ 0 rfl) 0 a rfl rfl
    rw [hr] at this
    exact this
  have f2 : ∀ (r : Row Unit) (q : Vec3), r.pos (.err 0) = some q →
      (rowSteps false (chunkAssignments ⟨false, t, false, 2⟩ [a] n') r).pos (.err 0) =
      some fun k => |(rotationMatrix a.alpha a.beta a.gamma).transpose.mulVec q k| := by
    intro r q hr
    have := rowSteps_col ⟨false, t, false, 2⟩ [a] n' r (.err 0) 0 (by intro k hk _; simpa using hk)
    rw [this]
    have hact : (owns n' 0 (.err 0) && active n' (.err 0)) = true := by
      unfold owns active
      dsimp only [Col.dut?]
      rw [htr n' a1, a2]
      rfl
    simp only [List.getElem?_cons_zero]
    rw [if_pos hact, hr]
    have hz : point false ((turnOverride a).on a) q = (rotationMatrix a.alpha a.beta a.gamma).transpose.mulVec q := by
      simp only [point, turnOverride_on, zero3, sub_zero, Bool.false_eq_true, if_false]
    simp [calls, colAssignment, fn, hz]
  constructor
  · rw [List.map_singleton, a3]
    simp only [exNode, List.map_cons, List.map_nil]
    exact congrArg (fun x => [[x]]) (f1 _ he)
  · rw [List.map_singleton, b3, a3]
    simp only [exNode, List.map_cons, List.map_nil]
    exact congrArg (fun x => [[x]]) (f2 _ _ (f1 _ he))

theorem sqrt_half : Real.cos (Real.pi / 4) = Real.sin (Real.pi / 4) := by rw [Real.cos_pi_div_four, Real.sin_pi_div_four]

/-- C80 is false of the errors: with a sensor turned by 45 degrees around the beam, an error of 1 in y becomes an error of 1 in x after
the way to global coordinates and back. -/
theorem C80_errors_changed : ∃ (a t : Alignment) (nodes out restored : List (Node Unit)),
    applyAlignment ⟨true, t, false, 2⟩ [a] nodes = .ok out ∧ applyAlignment ⟨false, t, false, 2⟩ [a] out = .ok restored ∧
    nodes.map (fun n => n.rows.map fun r => r.pos (.err 0)) = [[some ![0, 1, 0]]] ∧
    restored.map (fun n => n.rows.map fun r => r.pos (.err 0)) = [[some ![1, 0, 0]]] := by
  obtain ⟨out, restored, h1, h2, -, h3⟩ := single_errors ⟨0, 0, 0, 0, 0, Real.pi / 4⟩ ⟨0, 0, 0, 0, 0, 0⟩ ![0, 1, 0]
    (fun c => if c = .err 0 then some ![0, 1, 0] else none) (.inl (by simp)) (by simp)
  refine ⟨_, _, _, out, restored, h1, h2, by simp [exNode], ?_⟩
  rw [h3]
  congr 3
  have h := Real.sin_sq_add_cos_sq (Real.pi / 4)
  have e := sqrt_half
  have hp : 0 < Real.sin (Real.pi / 4) := by rw [Real.sin_pi_div_four]; positivity
  ext k
  rw [e] at h
  generalize Real.pi / 4 = g at e h hp
  fin_cases k <;>
    simp [turned, rotationMatrix_eq, Matrix.mulVec, dotProduct, Fin.sum_univ_succ, e, abs_of_pos hp]
  rw [show Real.sin g * Real.sin g + Real.sin g * Real.sin g = 1 by nlinarith, abs_one]

/-! ### C81 -/

theorem moved_sub (a : Alignment) (p q : Vec3) : moved a p - moved a q = turned a (p - q) := by
  unfold moved turned
  rw [add_sub_add_right_eq_sub, Matrix.mulVec_sub]

theorem moved_line (a : Alignment) (o s : Vec3) (t : ℝ) : moved a (o + t • s) = moved a o + t • turned a s := by
  unfold moved turned
  rw [Matrix.mulVec_add, Matrix.mulVec_smul]
  abel

theorem dist2_moved (a : Alignment) (p q : Vec3) : dist2 (moved a p) (moved a q) = dist2 p q := by
  have hd : ∀ u v : Vec3, dist2 u v = dot (u - v) (u - v) := by intro u v; simp [dist2, dot]; ring
  rw [hd, hd, moved_sub, turned, Props.dot_mulVec_orth _ (rotationMatrix_orth _ _ _)]

theorem globalPosition_line (beam : Option Alignment) (a : Alignment) (o s : Vec3) (t : ℝ) :
    globalPosition beam a (o + t • s) = globalPosition beam a o + t • globalDirection beam a s := by
  cases beam with
  | none => exact moved_line a o s t
  | some b => unfold globalPosition globalDirection; dsimp only; rw [moved_line, moved_line]

theorem dist2_global (beam : Option Alignment) (a : Alignment) (p q : Vec3) :
    dist2 (globalPosition beam a p) (globalPosition beam a q) = dist2 p q := by
  cases beam with
  | none => exact dist2_moved a p q
  | some b => unfold globalPosition; dsimp only; rw [dist2_moved, dist2_moved]

/-- C81: in the track table of a DUT, a hit of this DUT keeps its distance to every point of the track: the residuals and the hits on
the track are the same before and after the conversion to global coordinates. -/
theorem C81_distances (args : Args) (hg : args.toGlobal = true) (hcs : 0 < args.chunkSize) (duts : List Alignment)
    (hl : duts.length ≤ 10) (nodes out : List (Node α)) (hs : ∀ n ∈ nodes, SortedBy Row.event n.rows)
    (h : applyAlignment args duts nodes = .ok out) (j k : Nat) (n n' : Node α) (hn : nodes[j]? = some n) (hn' : out[j]? = some n')
    (hk : k < duts.length) (ht : TracksOf n k) (h1 : n.has .offset = true) (h2 : n.has .slope = true)
    (m : Nat) (r r' : Row α) (hr : n.rows[m]? = some r) (hr' : n'.rows[m]? = some r') (p o s : Vec3)
    (hp : r.pos (.hit k) = some p) (ho : r.pos .offset = some o) (hsl : r.pos .slope = some s) :
    ∃ p' o' s', r'.pos (.hit k) = some p' ∧ r'.pos .offset = some o' ∧ r'.pos .slope = some s' ∧
      (∀ t : ℝ, dist2 p' (o' + t • s') = dist2 p (o + t • s)) ∧ dot s' s' = dot s s := by
  have hall := C79_global_partial args hg hcs duts nodes out hs h
  have hpair : ∀ {A B : Type} {R : A → B → Prop} {l : List A} {l' : List B}, List.Forall₂ R l l' → ∀ {i : Nat} {x : A} {y : B},
      l[i]? = some x → l'[i]? = some y → R x y := by
    intro A B R l l' hf
    induction hf with
    | nil => intro i x y hx; simp at hx
    | cons hxy _ ih =>
      intro i x y hx hy
      cases i with
      | zero => simp at hx hy; subst hx hy; exact hxy
      | succ i => simp at hx hy; exact ih hx hy
  obtain ⟨-, -, hc, htr⟩ := hpair hall hn hn'
  have ha : duts[k]? = some duts[k] := List.getElem?_eq_getElem hk
  have hrow := hpair hc hr hr'
  have htrack := hpair (htr k duts[k] hl ha ht h1 h2) hr hr'
  refine ⟨_, _, _, by rw [hrow.hits k _ ha, hp]; rfl, by rw [htrack.offset, ho]; rfl, by rw [htrack.slope, hsl]; rfl, ?_, ?_⟩
  · intro t
    rw [← globalPosition_line, dist2_global]
  · have ht1 : ∀ (a : Alignment) (v : Vec3), dot (turned a v) (turned a v) = dot v v := fun a v =>
      Props.dot_mulVec_orth _ (rotationMatrix_orth _ _ _) v v
    cases args.alignToBeam with
    | false => exact ht1 _ _
    | true => simp only [if_true, globalDirection]; rw [ht1, ht1]

example : ∃ out : List (Node Unit), applyAlignment ⟨true, ⟨1, 0, 0, 0, 0.1, 0⟩, true, 10⟩ [⟨3, 4, 100, 0.2, 0, 0.5⟩]
    [exNode "Tracks_DUT0" fun c => if c = .slope then some ![0.01, 0, 1] else some ![5, 6, 0]] = .ok out := by
  apply C79_success _ rfl (by decide)
  · simp [exNode, SortedBy]
  · simp only [List.mem_singleton, forall_eq, exNode, BTA.Spec.multiplicity]
    intro e
    exact lt_of_le_of_lt (List.length_filter_le _ _) (by simp)
  · simp [exNode]
  · simp [exNode, HitsOnSensor]

/-! ### C82 -/

theorem axis_error (a : Alignment) (h : AxisTurn a) (e : Vec3) (k : Fin 3) : |turned a e k| = propagated a e k := by
  unfold turned propagated
  rw [← Real.sqrt_sq_eq_abs]
  congr 1
  simp only [Matrix.mulVec, dotProduct, Fin.sum_univ_three]
  rcases h k 0 1 (by decide) with h0 | h1
  · rw [h0]
    rcases h k 1 2 (by decide) with h1 | h2
    · rw [h1]; ring
    · rw [h2]; ring
  · rw [h1]
    rcases h k 0 2 (by decide) with h0 | h2
    · rw [h0]; ring
    · rw [h2]; ring

/-- C82 (partial): if the rotations only exchange or reverse axes (for example a sensor seen from the back), the errors of the hits
in global coordinates are the standard deviations of the converted coordinates. Missing: other rotations, for which it is false of the code
(`C82_error_lost`). -/
theorem C82_axis_turns_partial (args : Args) (hg : args.toGlobal = true) (hcs : 0 < args.chunkSize) (hb : args.alignToBeam = false)
    (duts : List Alignment) (nodes out : List (Node α)) (hs : ∀ n ∈ nodes, SortedBy Row.event n.rows)
    (h : applyAlignment args duts nodes = .ok out) :
    List.Forall₂ (fun n n' => IsTracks n → ∀ i a, duts[i]? = some a → AxisTurn a → n.has (.err i) = true →
      List.Forall₂ (fun r r' : Row α => r'.pos (.err i) = (r.pos (.err i)).map (propagated a)) n.rows n'.rows) nodes out := by
  refine (C79_global_partial args hg hcs duts nodes out hs h).imp ?_
  rintro n n' ⟨-, -, hc, -⟩ ht i a ha hax hh
  refine hc.imp ?_
  intro r r' hr
  rw [hr.errors ht i a ha hh, hb]
  congr 1
  funext e k
  exact axis_error a hax e k

/-- A sensor seen from the back. -/
example : AxisTurn ⟨1, 2, 3, 0, Real.pi, 0⟩ := by
  intro k i j hij
  fin_cases k <;> fin_cases i <;> fin_cases j <;> simp_all [rotationMatrix_eq]

/-- C82 is false of the code for other rotations: with a sensor turned by 45 degrees around the beam and an error of 1 in x and y, the
error of x in global coordinates is 0; it should be 1. -/
theorem C82_error_lost : ∃ (a t : Alignment) (nodes out : List (Node Unit)) (e' : Vec3),
    applyAlignment ⟨true, t, false, 2⟩ [a] nodes = .ok out ∧
    nodes.map (fun n => n.rows.map fun r => r.pos (.err 0)) = [[some ![1, 1, 0]]] ∧
    out.map (fun n => n.rows.map fun r => r.pos (.err 0)) = [[some e']] ∧ e' 0 = 0 ∧ propagated a ![1, 1, 0] 0 = 1 := by
  obtain ⟨out, restored, h1, -, h2, -⟩ := single_errors ⟨0, 0, 0, 0, 0, Real.pi / 4⟩ ⟨0, 0, 0, 0, 0, 0⟩ ![1, 1, 0]
    (fun c => if c = .err 0 then some ![1, 1, 0] else none) (.inl (by simp)) (by simp)
  refine ⟨_, _, _, out, _, h1, by simp [exNode], h2, ?_, ?_⟩
  · have e := sqrt_half
    simp [turned, rotationMatrix_eq, Matrix.mulVec, dotProduct, Fin.sum_univ_succ, e]
  · have h := Real.sin_sq_add_cos_sq (Real.pi / 4)
    rw [Real.sin_pi_div_four, Real.cos_pi_div_four] at h
    simp [propagated, rotationMatrix_eq, Fin.sum_univ_succ]
    exact h

end BTA.Apply
