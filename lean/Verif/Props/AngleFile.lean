import Verif.Spec.AngleFile
import Verif.Props.AngleHist
import Verif.Props.TrackAngle
import Verif.Props.KalmanExact
import Verif.Lemmas.Chunks
import Verif.Lemmas.Plots
/-
C224: the file with the histograms of the track angles; C225: its plots.
-/
namespace BTA.AngleFile.Props
open BTA.Geo BTA.HistStat BTA.Angle BTA.Spec BTA.AngleFile

/-! ### The angles -/

theorem globalSlope_eq (P : Kalman.Plane) (s : Vec3) : globalSlope (place P) s = P.rot.mulVec s := by
  unfold globalSlope place
  rw [apply_localToGlobal]
  simp only [Kalman.Plane.rot]
  ext i
  fin_cases i <;> simp

theorem angle_cases {v : Option ℝ} {p : ℝ → Prop} {c : Prop} (h1 : c → ∃ t, v = some t ∧ p t) (h2 : v = none ↔ ¬ c) (h3 : ∀ t, p t → c) :
    (∀ t, v = some t → p t) ∧ (v = none → ∀ t, ¬ p t) := by
  refine ⟨fun t ht => ?_, fun hn t hp => h2.mp hn (h3 t hp)⟩
  have hc : c := by
    by_contra hc
    rw [h2.mpr hc] at ht
    cases ht
  obtain ⟨t', ht', hp⟩ := h1 hc
  rw [ht] at ht'
  rw [Option.some.inj ht']
  exact hp

theorem total_spec (v : Vec3) : (∀ t, (trackAngles v).total = some t → IsTotal v t) ∧ ((trackAngles v).total = none → ∀ t, ¬ IsTotal v t) :=
  angle_cases (c := v ≠ 0) (fun h => by obtain ⟨t, h1, h2, h3, h4⟩ := BTA.Angle.Props.C113_total v h; exact ⟨t, h1, h, h2, h3, h4⟩)
    (by rw [(BTA.Angle.Props.C113_nan v).1]; tauto) fun t h => h.1

theorem alpha_spec (v : Vec3) : (∀ t, (trackAngles v).alpha = some t → IsProjected (v 1) (v 2) t) ∧
    ((trackAngles v).alpha = none → ∀ t, ¬ IsProjected (v 1) (v 2) t) :=
  angle_cases (c := v 1 ≠ 0 ∨ v 2 ≠ 0) (fun h => by obtain ⟨t, h1, h2, h3, h4, h5⟩ := BTA.Angle.Props.C113_alpha v h; exact ⟨t, h1, h, h2, h3, h4, h5⟩)
    (by rw [(BTA.Angle.Props.C113_nan v).2.1]; tauto) fun t h => h.1

theorem beta_spec (v : Vec3) : (∀ t, (trackAngles v).beta = some t → IsProjected (-v 0) (v 2) t) ∧
    ((trackAngles v).beta = none → ∀ t, ¬ IsProjected (-v 0) (v 2) t) :=
  angle_cases (c := v 0 ≠ 0 ∨ v 2 ≠ 0)
    (fun h => by
      obtain ⟨t, h1, h2, h3, h4, h5⟩ := BTA.Angle.Props.C113_beta v h
      exact ⟨t, h1, by rwa [neg_ne_zero], h2, h3, by rw [neg_sq]; exact h4, by rw [neg_sq]; exact h5⟩)
    (by rw [(BTA.Angle.Props.C113_nan v).2.2]; tauto) fun t h => by have := h.1; rwa [neg_ne_zero] at this

theorem angleOf_spec (P : Kalman.Plane) (k : Kind) (r : Row) : AngleOfTrack P k r (angleOf (place P) k r) := by
  unfold AngleOfTrack angleOf
  cases hs : r.slope with
  | none => exact ⟨fun t h => (by cases h), fun _ s h => (by cases h)⟩
  | some s =>
    have hk : ∀ (v : Option ℝ) (p : ℝ → Prop), (∀ t, IsAngle P s k t ↔ p t) → (∀ t, v = some t → p t) ∧ (v = none → ∀ t, ¬ p t) →
        (∀ t, v = some t → ∃ s', some s = some s' ∧ IsAngle P s' k t) ∧ (v = none → ∀ s', some s = some s' → ∀ t, ¬ IsAngle P s' k t) := by
      intro v p hp h
      refine ⟨fun t ht => ⟨s, rfl, (hp t).mpr (h.1 t ht)⟩, fun hv s' e t => ?_⟩
      rw [← Option.some.inj e, hp]
      exact h.2 hv t
    simp only [globalSlope_eq]
    cases k with
    | globalTotal => exact hk _ _ (fun t => ⟨fun h => by cases h; assumption, .globalTotal t⟩) (total_spec _)
    | globalAlpha => exact hk _ _ (fun t => ⟨fun h => by cases h; assumption, .globalAlpha t⟩) (alpha_spec _)
    | globalBeta => exact hk _ _ (fun t => ⟨fun h => by cases h; assumption, .globalBeta t⟩) (beta_spec _)
    | localTotal => exact hk _ _ (fun t => ⟨fun h => by cases h; assumption, .localTotal t⟩) (total_spec _)
    | localAlpha => exact hk _ _ (fun t => ⟨fun h => by cases h; assumption, .localAlpha t⟩) (alpha_spec _)
    | localBeta => exact hk _ _ (fun t => ⟨fun h => by cases h; assumption, .localBeta t⟩) (beta_spec _)

theorem angles_of_tracks (P : Kalman.Plane) (k : Kind) : ∀ rows : List Row, List.Forall₂ (AngleOfTrack P k) rows (rows.map (angleOf (place P) k))
  | [] => .nil
  | r :: rows => .cons (angleOf_spec P k r) (angles_of_tracks P k rows)

/-! ### The loop -/

theorem fillHists_ok (inp : Input) (a : Dut.Alignment) (chunks : List (List Row)) : ∀ (ks : List Kind) (vars vars' : Vars),
    fillHists inp a chunks ks vars = .ok vars' →
    (∀ k ∈ ks, ∃ h, vars' k = some h ∧ angleHist inp.nBins (chunks.map fun c => c.map (angleOf a k)) = .ok (h.counts, h.edges)) ∧ ∀ k, k ∉ ks → vars' k = vars k
  | [], vars, vars', h => by
    rw [fillHists] at h
    injection h with h
    subst h
    exact ⟨by simp, fun _ _ => rfl⟩
  | k :: ks, vars, vars', h => by
    rw [fillHists] at h
    split at h
    · cases h
    · rename_i counts edges hk
      obtain ⟨h1, h2⟩ := fillHists_ok inp a chunks ks _ _ h
      refine ⟨fun j hj => ?_, fun j hj => ?_⟩
      · by_cases hjs : j ∈ ks
        · exact h1 j hjs
        · rw [List.mem_cons, or_iff_left hjs] at hj
          subst hj
          exact ⟨⟨counts, edges⟩, by rw [h2 j hjs, Function.update_self], hk⟩
      · rw [List.mem_cons, not_or] at hj
        rw [h2 j hj.2, Function.update_of_ne hj.1]

theorem fillHists_exists (inp : Input) (a : Dut.Alignment) (chunks : List (List Row)) : ∀ (ks : List Kind) (vars : Vars),
    (∀ k ∈ ks, ∃ p, angleHist inp.nBins (chunks.map fun c => c.map (angleOf a k)) = .ok p) → ∃ vars', fillHists inp a chunks ks vars = .ok vars'
  | [], vars, _ => ⟨vars, rfl⟩
  | k :: ks, vars, h => by
    obtain ⟨⟨c, e⟩, hp⟩ := h k List.mem_cons_self
    rw [fillHists, hp]
    exact fillHists_exists inp a chunks ks _ fun j hj => h j (List.mem_cons_of_mem _ hj)

/-- The nodes that are stored for an item with these variables. -/
noncomputable def nodes (inp : Input) (i : Item) (vars : Vars) : File :=
  i.kinds.filterMap fun k => (vars k).map fun h => ((k, i.label), { hist := h, curve := inp.fit h })

theorem create_ok (inp : Input) (vars : Vars) (label : Option Nat) : ∀ (ks : List Kind) (file file' : File), create inp vars label ks file = .ok file' →
    file' = file ++ ks.filterMap (fun k => (vars k).map fun h => ((k, label), { hist := h, curve := inp.fit h })) ∧ (∀ k ∈ ks, (vars k).isSome) ∧
      ((file.map Prod.fst).Nodup → (file'.map Prod.fst).Nodup)
  | [], file, file', h => by
    rw [create] at h
    injection h with h
    subst h
    exact ⟨by simp, by simp, id⟩
  | k :: ks, file, file', h => by
    rw [create] at h
    split at h
    · cases h
    · rename_i hist hk
      split at h
      · cases h
      · rename_i hnot
        obtain ⟨h1, h2, h3⟩ := create_ok inp vars label ks _ _ h
        refine ⟨?_, ?_, ?_⟩
        · rw [h1, List.filterMap_cons, hk]
          simp
        · intro j hj
          rcases List.mem_cons.mp hj with rfl | hj
          · rw [hk]; rfl
          · exact h2 j hj
        · intro hn
          apply h3
          rw [List.map_append, List.nodup_append]
          refine ⟨hn, by simp, ?_⟩
          intro x hx y hy
          simp only [List.map_cons, List.map_nil, List.mem_singleton] at hy
          subst hy
          rintro rfl
          exact hnot hx

theorem create_exists (inp : Input) (vars : Vars) (label : Option Nat) : ∀ (ks : List Kind) (file : File), ks.Nodup → (∀ k ∈ ks, (vars k).isSome) →
    (∀ k ∈ ks, (k, label) ∉ file.map Prod.fst) → ∃ file', create inp vars label ks file = .ok file'
  | [], file, _, _, _ => ⟨file, rfl⟩
  | k :: ks, file, hn, hv, hf => by
    obtain ⟨h, hk⟩ := Option.isSome_iff_exists.mp (hv k List.mem_cons_self)
    rw [List.nodup_cons] at hn
    rw [create, hk]
    dsimp only
    rw [if_neg (hf k List.mem_cons_self)]
    refine create_exists inp vars label ks _ hn.2 (fun j hj => hv j (List.mem_cons_of_mem _ hj)) fun j hj hm => ?_
    rw [List.map_append, List.mem_append] at hm
    rcases hm with hm | hm
    · exact hf j (List.mem_cons_of_mem _ hj) hm
    · simp only [List.map_cons, List.map_nil, List.mem_singleton, Prod.mk.injEq, and_true] at hm
      subst hm
      exact hn.1 hj

/-- The variables after each item. -/
inductive Run (inp : Input) : Vars → List Item → List (Item × Vars) → Prop
  | nil (vars) : Run inp vars [] []
  | cons {vars vars' i is tr} (h : readTable inp i.dut i.kinds vars = .ok vars') (hs : ∀ k ∈ i.kinds, (vars' k).isSome) (r : Run inp vars' is tr) :
      Run inp vars (i :: is) ((i, vars') :: tr)

theorem loop_ok (inp : Input) : ∀ (is : List Item) (vars : Vars) (file f : File), loop inp is vars file = (f, none) →
    ∃ tr, Run inp vars is tr ∧ f = file ++ tr.flatMap (fun p => nodes inp p.1 p.2) ∧ ((file.map Prod.fst).Nodup → (f.map Prod.fst).Nodup)
  | [], vars, file, f, h => by
    rw [loop] at h
    injection h with h
    subst h
    exact ⟨[], .nil _, by simp, id⟩
  | i :: is, vars, file, f, h => by
    rw [loop] at h
    split at h
    · cases h
    · rename_i vars' hr
      split at h
      · cases h
      · rename_i file' hc
        obtain ⟨c1, c2, c3⟩ := create_ok inp vars' i.label i.kinds file file' hc
        obtain ⟨tr, h1, h2, h3⟩ := loop_ok inp is vars' file' f h
        refine ⟨(i, vars') :: tr, .cons hr c2 h1, ?_, fun hn => h3 (c3 hn)⟩
        rw [h2, c1, List.flatMap_cons, List.append_assoc]
        rfl

theorem Run.items {inp : Input} {vars : Vars} {is : List Item} {tr : List (Item × Vars)} (h : Run inp vars is tr) : tr.map Prod.fst = is := by
  induction h with
  | nil => rfl
  | cons _ _ _ ih => rw [List.map_cons, ih]

theorem Run.some {inp : Input} {vars : Vars} {is : List Item} {tr : List (Item × Vars)} (h : Run inp vars is tr) :
    ∀ p ∈ tr, ∀ k ∈ p.1.kinds, (p.2 k).isSome := by
  induction h with
  | nil => simp
  | cons _ hs _ ih =>
    intro p hp
    rcases List.mem_cons.mp hp with rfl | hp
    · exact hs
    · exact ih p hp

theorem Run.read {inp : Input} {vars : Vars} {is : List Item} {tr : List (Item × Vars)} (h : Run inp vars is tr) :
    ∀ p ∈ tr, ∃ v, readTable inp p.1.dut p.1.kinds v = .ok p.2 := by
  induction h with
  | nil => simp
  | cons h _ _ ih =>
    intro p hp
    rcases List.mem_cons.mp hp with rfl | hp
    · exact ⟨_, h⟩
    · exact ih p hp

theorem nodes_names (inp : Input) (i : Item) (vars : Vars) (h : ∀ k ∈ i.kinds, (vars k).isSome) : (nodes inp i vars).map Prod.fst = i.kinds.map fun k => (k, i.label) := by
  unfold nodes
  generalize i.kinds = ks at h ⊢
  induction ks with
  | nil => rfl
  | cons k ks ih =>
    obtain ⟨x, hx⟩ := Option.isSome_iff_exists.mp (h k List.mem_cons_self)
    rw [List.filterMap_cons, hx]
    simp only [Option.map_some, List.map_cons]
    rw [ih fun j hj => h j (List.mem_cons_of_mem _ hj)]

theorem mem_nodes (inp : Input) (i : Item) (vars : Vars) (name : Name) (st : Stored) :
    (name, st) ∈ nodes inp i vars ↔ ∃ k ∈ i.kinds, ∃ h, vars k = some h ∧ name = (k, i.label) ∧ st = { hist := h, curve := inp.fit h } := by
  unfold nodes
  rw [List.mem_filterMap]
  constructor
  · rintro ⟨k, hk, h⟩
    rw [Option.map_eq_some_iff] at h
    obtain ⟨x, hx, he⟩ := h
    injection he with h1 h2
    exact ⟨k, hk, x, hx, h1.symm, h2.symm⟩
  · rintro ⟨k, hk, x, hx, rfl, rfl⟩
    exact ⟨k, hk, by rw [hx]; rfl⟩

/-! ### Reading -/

theorem chunks_of (cs : Nat) (rows : List Row) (hr : ReadableRows cs rows) :
    (dataAligned Row.event rows { chunkSize := cs }).err = none ∧ ((dataAligned Row.event rows { chunkSize := cs }).items.map Prod.fst).flatten = rows ∧
    ∀ c ∈ (dataAligned Row.event rows { chunkSize := cs }).items.map Prod.fst, c ≠ [] := by
  have hcs : 0 < cs := Nat.lt_of_le_of_lt (Nat.zero_le _) (hr.2 0)
  have he := BTA.chunks_ok hr.1 cs hcs hr.2
  obtain ⟨h1, h2⟩ := BTA.Plots.chunks_ok Row.event rows hr.1 cs hcs
  exact ⟨he, h2 he, h1⟩

theorem angleHist_counts (n : Nat) (a : Dut.Alignment) (k : Kind) (chunks : List (List Row)) (counts : List Nat) (edges : List ℝ)
    (h : angleHist n (chunks.map fun c => c.map (angleOf a k)) = .ok (counts, edges)) : Counts n (chunks.flatten.map (angleOf a k)) ⟨counts, edges⟩ := by
  obtain ⟨h1, h2, h3⟩ := BTA.HistStat.Props.C115_counts n _ counts edges h
  refine ⟨h1, h2, ?_, ?_⟩
  · cases hc : chunks with
    | nil => rw [hc] at h; cases h
    | cons c cs =>
      rw [hc] at h
      obtain ⟨_, _, _, _, _, _, h4, _⟩ := BTA.HistStat.Props.C115_range n _ _ counts edges h
      exact h4
  · intro i hi
    rw [h3 i hi]
    have e : (chunks.map fun c => c.map (angleOf a k)).flatten = chunks.flatten.map (angleOf a k) := List.map_flatten.symm
    rw [e]
    rfl

theorem readTable_ok (inp : Input) (d : Nat) (kinds : List Kind) (vars vars' : Vars) (rows : List Row) (ht : inp.tables d = some rows)
    (hr : ReadableRows inp.chunkSize rows) (hne : rows ≠ []) (h : readTable inp d kinds vars = .ok vars') :
    ∃ P, inp.planes[d]? = some P ∧ ∀ k ∈ kinds, ∃ x, vars' k = some x ∧ Counts inp.nBins (rows.map (angleOf (place P) k)) x := by
  obtain ⟨h1, h2, h3⟩ := chunks_of inp.chunkSize rows hr
  unfold readTable at h
  rw [ht] at h
  cases hp : inp.planes[d]? with
  | none => rw [hp] at h; cases h
  | some P =>
    rw [hp] at h
    dsimp only at h
    refine ⟨P, rfl, ?_⟩
    rw [h1] at h
    cases hc : (dataAligned Row.event rows { chunkSize := inp.chunkSize }).items.map Prod.fst with
    | nil =>
      rw [hc] at h2
      exact absurd h2.symm hne
    | cons c cs =>
      rw [hc] at h h2
      dsimp only at h
      split at h
      · cases h
      · rename_i v hv
        injection h with h
        subst h
        intro k hk
        obtain ⟨x, hx, hx'⟩ := (fillHists_ok inp (place P) (c :: cs) kinds vars v hv).1 k hk
        refine ⟨x, hx, ?_⟩
        have := angleHist_counts inp.nBins (place P) k (c :: cs) x.counts x.edges hx'
        rwa [h2] at this

theorem readTable_empty (inp : Input) (d : Nat) (kinds : List Kind) (vars vars' : Vars) (ht : inp.tables d = some []) (hcs : 0 < inp.chunkSize)
    (h : readTable inp d kinds vars = .ok vars') : vars' = vars := by
  obtain ⟨h1, h2, h3⟩ := chunks_of inp.chunkSize [] ⟨by simp [SortedBy], fun e => by simpa [BTA.Spec.multiplicity] using hcs⟩
  unfold readTable at h
  rw [ht] at h
  cases hp : inp.planes[d]? with
  | none => rw [hp] at h; cases h
  | some P =>
    rw [hp] at h
    dsimp only at h
    rw [h1] at h
    cases hc : (dataAligned Row.event ([] : List Row) { chunkSize := inp.chunkSize }).items.map Prod.fst with
    | nil =>
      rw [hc] at h
      injection h with h
      exact h.symm
    | cons c cs =>
      exfalso
      rw [hc] at h2 h3
      rw [List.flatten_cons, List.append_eq_nil_iff] at h2
      exact h3 c List.mem_cons_self h2.1

theorem readTable_exists (inp : Input) (d : Nat) (kinds : List Kind) (vars : Vars) (rows : List Row) (P : Kalman.Plane) (ht : inp.tables d = some rows)
    (hp : inp.planes[d]? = some P) (hr : ReadableRows inp.chunkSize rows) (hne : rows ≠ []) (hb : inp.nBins ≠ 0)
    (hk : ∀ r ∈ rows, ∀ k, (angleOf (place P) k r).isSome) : ∃ vars', readTable inp d kinds vars = .ok vars' := by
  obtain ⟨h1, h2, h3⟩ := chunks_of inp.chunkSize rows hr
  unfold readTable
  rw [ht, hp]
  dsimp only
  rw [h1]
  cases hc : (dataAligned Row.event rows { chunkSize := inp.chunkSize }).items.map Prod.fst with
  | nil =>
    rw [hc] at h2
    exact absurd h2.symm hne
  | cons c cs =>
    rw [hc] at h2 h3
    dsimp only
    obtain ⟨v, hv⟩ := fillHists_exists inp (place P) (c :: cs) kinds vars (fun k _ => by
      rw [List.map_cons]
      unfold angleHist
      dsimp only
      rw [if_neg hb]
      have hne' : (c.map (angleOf (place P) k)).filterMap id ≠ [] := by
        cases hcc : c with
        | nil => exact absurd hcc (h3 c List.mem_cons_self)
        | cons r rs =>
          have hr' : r ∈ rows := by
            rw [← h2, hcc]
            simp
          obtain ⟨x, hx⟩ := Option.isSome_iff_exists.mp (hk r hr' k)
          rw [List.map_cons, hx]
          simp
      unfold angleRange nanmean nanstd
      rw [if_neg hne', if_neg hne']
      exact ⟨_, rfl⟩)
    rw [hv]
    exact ⟨v, rfl⟩

/-! ### The order of the DUTs -/

theorem mem_selected (o : List Nat) (select : List Int) (d : Nat) : d ∈ selected o select ↔ d ∈ o ∧ (d : Int) ∈ select := by
  unfold selected
  rw [List.mem_flatMap]
  constructor
  · rintro ⟨x, hx, h⟩
    rw [List.mem_replicate] at h
    obtain ⟨h1, rfl⟩ := h
    exact ⟨hx, List.count_pos_iff.mp (Nat.pos_of_ne_zero h1)⟩
  · rintro ⟨h1, h2⟩
    exact ⟨d, h1, List.mem_replicate.mpr ⟨(List.count_pos_iff.mpr h2).ne', rfl⟩⟩

theorem selected_filter (select : List Int) : ∀ (o : List Nat), (selected o select).Nodup → selected o select = o.filter fun d : Nat => decide ((d : Int) ∈ select)
  | [], _ => rfl
  | d :: o, h => by
    unfold selected at h ⊢
    rw [List.flatMap_cons] at h ⊢
    rw [List.nodup_append] at h
    have hih := selected_filter select o h.2.1
    unfold selected at hih
    rw [hih]
    have hle : select.count (d : Int) ≤ 1 := List.nodup_replicate.mp h.1
    by_cases hm : (d : Int) ∈ select
    · rw [List.filter_cons_of_pos (by simpa using hm)]
      have : select.count (d : Int) = 1 := le_antisymm hle (List.count_pos_iff.mpr hm)
      rw [this]
      rfl
    · rw [List.filter_cons_of_neg (by simpa using hm), List.count_eq_zero_of_not_mem hm]
      rfl

theorem selected_nodup (select : List Int) (hs : select.Nodup) (o : List Nat) (ho : o.Nodup) : (selected o select).Nodup := by
  have : selected o select = o.filter fun d : Nat => decide ((d : Int) ∈ select) := by
    clear ho
    induction o with
    | nil => rfl
    | cons d o ih =>
      unfold selected at ih ⊢
      rw [List.flatMap_cons, ih]
      by_cases hm : (d : Int) ∈ select
      · rw [List.filter_cons_of_pos (by simpa using hm), List.count_eq_one_of_mem hs hm]
        rfl
      · rw [List.filter_cons_of_neg (by simpa using hm), List.count_eq_zero_of_not_mem hm]
        rfl
  rw [this]
  exact ho.filter _

theorem inOrder (planes : List Kalman.Plane) (select : List Int) (z : List ℝ) (o : List Nat) (hz : Kalman.zIntersections planes = some z) (ho : SortsIndices z o)
    (hn : (selected o select).Nodup) : InOrder planes select (selected o select) := by
  obtain ⟨hl, hg⟩ := BTA.Props.zIntersections_get planes z hz
  refine ⟨fun d => ?_, hn, ?_⟩
  · rw [mem_selected, ho.1.mem_iff, List.mem_range, hl]
  · rw [selected_filter select o hn]
    refine List.Pairwise.imp_of_mem ?_ (ho.2.filter _)
    intro i j hi hj h
    have li : i < z.length := List.mem_range.mp (ho.1.subset (List.mem_of_mem_filter hi))
    have lj : j < z.length := List.mem_range.mp (ho.1.subset (List.mem_of_mem_filter hj))
    obtain ⟨P, hP, p1⟩ := hg i _ (List.getElem?_eq_getElem li)
    obtain ⟨Q, hQ, q1⟩ := hg j _ (List.getElem?_eq_getElem lj)
    exact ⟨P, Q, _, _, hP, hQ, p1, q1, h _ _ (List.getElem?_eq_getElem li) (List.getElem?_eq_getElem lj)⟩

/-! ### C224 -/

/-- The names of the nodes for the selected DUTs in this order: the telescope, then the DUTs. -/
def expectedNames (sel : List Nat) : List Name :=
  (globals.map fun k => (k, none)) ++ sel.flatMap fun d => (globals ++ locals).map fun k => (k, some d)

theorem names_run {inp : Input} {vars : Vars} {is : List Item} {tr : List (Item × Vars)} (h : Run inp vars is tr) :
    (tr.flatMap fun p => nodes inp p.1 p.2).map Prod.fst = is.flatMap fun i => i.kinds.map fun k => (k, i.label) := by
  induction h with
  | nil => rfl
  | cons _ hs _ ih => rw [List.flatMap_cons, List.flatMap_cons, List.map_append, ih, nodes_names _ _ _ hs]

theorem items_names (d : Nat) (sel : List Nat) :
    ((⟨true, d⟩ :: sel.map fun d => ⟨false, d⟩ : List Item).flatMap fun i => i.kinds.map fun k => (k, i.label)) = expectedNames sel := by
  rw [List.flatMap_cons, List.flatMap_map]
  rfl

theorem expectedNames_nodup (l : List Nat) (h : (expectedNames l).Nodup) : l.Nodup := by
  unfold expectedNames at h
  have hn2 := (List.nodup_append.mp h).2.1
  have hsub : (l.map fun d : Nat => ((Kind.globalTotal, some d) : Name)).Sublist (l.flatMap fun d : Nat => (globals ++ locals).map fun k => (k, some d)) := by
    clear h hn2
    induction l with
    | nil => exact List.Sublist.slnil
    | cons x l ih =>
      rw [List.map_cons, List.flatMap_cons]
      have : [((Kind.globalTotal, some x) : Name)].Sublist ((globals ++ locals).map fun k => (k, some x)) := by
        rw [List.singleton_sublist]
        simp [globals]
      exact this.append ih
  exact List.Nodup.of_map _ (hn2.sublist hsub)

/-- What a call that returns has done. -/
theorem returned_run (inp : Input) (select : List Int) (old : Option File) (z : List ℝ) (hz : Kalman.zIntersections inp.planes = some z)
    (h : (histogramTrackAngle inp select old).err = none) :
    ∃ d sel tr file, selected (inp.argsort z) select = d :: sel ∧ (d :: sel).Nodup ∧ (histogramTrackAngle inp select old).file = some file ∧
      Run inp (fun _ => none) (⟨true, d⟩ :: (d :: sel).map fun d => ⟨false, d⟩) tr ∧ file = tr.flatMap (fun p => nodes inp p.1 p.2) ∧
      file.map Prod.fst = expectedNames (d :: sel) ∧ (file.map Prod.fst).Nodup := by
  unfold histogramTrackAngle at h ⊢
  rw [hz] at h ⊢
  dsimp only at h ⊢
  cases hsel : selected (inp.argsort z) select with
  | nil => rw [hsel] at h; cases h
  | cons d sel =>
    rw [hsel] at h
    dsimp only at h ⊢
    obtain ⟨tr, h1, h2, h3⟩ := loop_ok inp (⟨true, d⟩ :: (d :: sel).map fun d => ⟨false, d⟩) (fun _ => none) []
      (loop inp (⟨true, d⟩ :: (d :: sel).map fun d => ⟨false, d⟩) (fun _ => none) []).1 (Prod.ext rfl h)
    rw [List.nil_append] at h2
    have hnames : (loop inp (⟨true, d⟩ :: (d :: sel).map fun d => ⟨false, d⟩) (fun _ => none) []).1.map Prod.fst = expectedNames (d :: sel) := by
      rw [h2, names_run h1, items_names]
    have hn := h3 List.nodup_nil
    exact ⟨d, sel, tr, _, rfl, expectedNames_nodup _ (hnames ▸ hn), rfl, h1, h2, hnames, hn⟩

theorem returned_nodup (inp : Input) (select : List Int) (old : Option File) (z : List ℝ) (hz : Kalman.zIntersections inp.planes = some z)
    (h : (histogramTrackAngle inp select old).err = none) : (selected (inp.argsort z) select).Nodup := by
  obtain ⟨d, sel, tr, file, h1, h2, -⟩ := returned_run inp select old z hz h
  rwa [h1]

theorem returned (inp : Input) (hsort : ∀ z, SortsIndices z (inp.argsort z)) (select : List Int) (old : Option File)
    (h : (histogramTrackAngle inp select old).err = none) :
    ∃ d sel tr file, InOrder inp.planes select (d :: sel) ∧ (histogramTrackAngle inp select old).file = some file ∧
      Run inp (fun _ => none) (⟨true, d⟩ :: (d :: sel).map fun d => ⟨false, d⟩) tr ∧ file = tr.flatMap (fun p => nodes inp p.1 p.2) ∧
      file.map Prod.fst = expectedNames (d :: sel) ∧ (file.map Prod.fst).Nodup := by
  cases hz : Kalman.zIntersections inp.planes with
  | none =>
    unfold histogramTrackAngle at h
    rw [hz] at h
    cases h
  | some z =>
    obtain ⟨d, sel, tr, file, h1, h2, h3⟩ := returned_run inp select old z hz h
    refine ⟨d, sel, tr, file, ?_, h3⟩
    rw [← h1]
    exact inOrder inp.planes select z _ hz (hsort z) (h1 ▸ h2)

/-- C224: a call that returns has stored the histograms of the three global angles for the telescope, then of all six angles for each selected DUT
in the order along the beam. Each histogram counts the angles of all tracks of its DUT, that of the telescope those of the first DUT along the beam.

What is missing for the full statement: `C224_stale` (empty track tables), `C224_ignored_fails`, `C224_twice_fails` and `C224_empty_fails`. -/
theorem C224_histograms_partial (inp : Input) (hsort : ∀ z, SortsIndices z (inp.argsort z)) (select : List Int) (old : Option File)
    (h : (histogramTrackAngle inp select old).err = none)
    (hread : ∀ (d : Nat) rows, (d : Int) ∈ select → inp.tables d = some rows → ReadableRows inp.chunkSize rows ∧ rows ≠ []) :
    ∃ d sel file, InOrder inp.planes select (d :: sel) ∧ (histogramTrackAngle inp select old).file = some file ∧
      file.map Prod.fst = (globals.map fun k => (k, none)) ++ ((d :: sel).flatMap fun d => (globals ++ locals).map fun k => (k, some d)) ∧
      (∀ k st, ((k, none), st) ∈ file → AnglesOf inp d k st) ∧ ∀ e k st, ((k, some e), st) ∈ file → AnglesOf inp e k st := by
  obtain ⟨d, sel, tr, file, h1, h2, h3, h4, h5, -⟩ := returned inp hsort select old h
  have key : ∀ (i : Item) vars, (i, vars) ∈ tr → ∀ k ∈ i.kinds, ∀ x, vars k = some x → AnglesOf inp i.dut k { hist := x, curve := inp.fit x } := by
    intro i vars hi k hk x hx
    obtain ⟨v, hv⟩ := h3.read _ hi
    have hd : i.dut ∈ d :: sel := by
      have : i ∈ (⟨true, d⟩ :: (d :: sel).map fun d => ⟨false, d⟩ : List Item) := by
        rw [← h3.items]
        exact List.mem_map_of_mem hi
      rcases List.mem_cons.mp this with rfl | hm
      · exact List.mem_cons_self
      · obtain ⟨e, he, rfl⟩ := List.mem_map.mp hm
        exact he
    cases ht : inp.tables i.dut with
    | none =>
      unfold readTable at hv
      rw [ht] at hv
      cases hv
    | some rows =>
      obtain ⟨g1, g2⟩ := hread i.dut rows ((h1.mem _).mp hd).2 ht
      obtain ⟨P, hP, hk'⟩ := readTable_ok inp i.dut i.kinds v vars rows ht g1 g2 hv
      obtain ⟨y, hy, hy'⟩ := hk' k hk
      rw [hx] at hy
      injection hy with hy
      subst hy
      exact ⟨rows, P, _, ht, hP, angles_of_tracks P k rows, hy', rfl⟩
  refine ⟨d, sel, file, h1, h2, h5, ?_, ?_⟩
  · intro k st hm
    rw [h4, List.mem_flatMap] at hm
    obtain ⟨⟨i, vars⟩, hi, hm⟩ := hm
    obtain ⟨k', hk', x, hx, hname, rfl⟩ := (mem_nodes inp i vars _ st).mp hm
    injection hname with e1 e2
    subst e1
    have hi' : i ∈ (⟨true, d⟩ :: (d :: sel).map fun d => ⟨false, d⟩ : List Item) := by
      rw [← h3.items]
      exact List.mem_map_of_mem hi
    rcases List.mem_cons.mp hi' with rfl | hm'
    · exact key _ vars hi _ hk' x hx
    · obtain ⟨e, he, rfl⟩ := List.mem_map.mp hm'
      exact absurd e2 (by simp [Item.label])
  · intro e k st hm
    rw [h4, List.mem_flatMap] at hm
    obtain ⟨⟨i, vars⟩, hi, hm⟩ := hm
    obtain ⟨k', hk', x, hx, hname, rfl⟩ := (mem_nodes inp i vars _ st).mp hm
    injection hname with e1 e2
    subst e1
    have : i.dut = e := by
      unfold Item.label at e2
      split at e2
      · cases e2
      · injection e2 with e2
        exact e2.symm
    rw [← this]
    exact key _ vars hi _ hk' x hx

/-- The tracks of a DUT can be processed: its table can be read and all tracks have all angles. -/
def Processable (inp : Input) (d : Nat) : Prop := ∃ (rows : List Row) (P : Kalman.Plane), inp.planes[d]? = some P ∧ inp.tables d = some rows ∧
  ReadableRows inp.chunkSize rows ∧ ∀ r ∈ rows, ∀ k, (angleOf (place P) k r).isSome

theorem loop_step (inp : Input) (hb : inp.nBins ≠ 0) (i : Item) (is : List Item) (vars : Vars) (file : File) (hp : Processable inp i.dut)
    (hv : inp.tables i.dut ≠ some [] ∨ ∀ k ∈ i.kinds, (vars k).isSome) (hf : ∀ k, (k, i.label) ∉ file.map Prod.fst) :
    ∃ v f, loop inp (i :: is) vars file = loop inp is v f ∧ (∀ k ∈ i.kinds, (v k).isSome) ∧
      ∀ (k : Kind) l, (k, l) ∈ f.map Prod.fst → (k, l) ∈ file.map Prod.fst ∨ l = i.label := by
  obtain ⟨rows, P, hP, ht, hr, hk⟩ := hp
  have hread : ∃ v, readTable inp i.dut i.kinds vars = .ok v ∧ ∀ k ∈ i.kinds, (v k).isSome := by
    by_cases hne : rows = []
    · subst hne
      have hv' := hv.resolve_left fun h => h ht
      refine ⟨vars, ?_, hv'⟩
      obtain ⟨h1, h2, h3⟩ := chunks_of inp.chunkSize [] hr
      unfold readTable
      rw [ht, hP]
      dsimp only
      rw [h1]
      cases hc : (dataAligned Row.event ([] : List Row) { chunkSize := inp.chunkSize }).items.map Prod.fst with
      | nil => rfl
      | cons c cs =>
        exfalso
        rw [hc] at h2 h3
        rw [List.flatten_cons, List.append_eq_nil_iff] at h2
        exact h3 c List.mem_cons_self h2.1
    · obtain ⟨v, hv⟩ := readTable_exists inp i.dut i.kinds vars rows P ht hP hr hne hb hk
      refine ⟨v, hv, fun k hk => ?_⟩
      obtain ⟨Q, -, hq⟩ := readTable_ok inp i.dut i.kinds vars v rows ht hr hne hv
      obtain ⟨x, hx, -⟩ := hq k hk
      rw [hx]; rfl
  obtain ⟨v, hv, hsome⟩ := hread
  obtain ⟨f, hf'⟩ := create_exists inp v i.label i.kinds file (by unfold Item.kinds; split <;> decide) hsome (fun k _ => hf k)
  refine ⟨v, f, by rw [loop, hv]; dsimp only; rw [hf'], hsome, ?_⟩
  intro k l hm
  obtain ⟨e1, -, -⟩ := create_ok inp v i.label i.kinds file f hf'
  rw [e1, List.map_append, List.mem_append] at hm
  rcases hm with hm | hm
  · exact Or.inl hm
  · right
    have e2 := nodes_names inp i v hsome
    unfold nodes at e2
    rw [e2, List.mem_map] at hm
    obtain ⟨k', -, he⟩ := hm
    injection he with _ he
    exact he.symm

theorem loop_duts (inp : Input) (hb : inp.nBins ≠ 0) : ∀ (ds : List Nat) (vars : Vars) (file : File), (∀ d ∈ ds, Processable inp d) → ds.Nodup →
    (∀ k, (vars k).isSome) → (∀ d ∈ ds, ∀ k : Kind, (k, some d) ∉ file.map Prod.fst) → (loop inp (ds.map fun d => ⟨false, d⟩) vars file).2 = none
  | [], _, _, _, _, _, _ => rfl
  | d :: ds, vars, file, hp, hn, hv, hf => by
    rw [List.nodup_cons] at hn
    obtain ⟨v, f, h1, h2, h3⟩ := loop_step inp hb ⟨false, d⟩ (ds.map fun d => ⟨false, d⟩) vars file (hp d List.mem_cons_self) (Or.inr fun k _ => hv k)
      (fun k => hf d List.mem_cons_self k)
    rw [List.map_cons, h1]
    refine loop_duts inp hb ds v f (fun e he => hp e (List.mem_cons_of_mem _ he)) hn.2 (fun k => h2 k (by cases k <;> simp [Item.kinds, globals, locals])) fun e he k hm => ?_
    rcases h3 k _ hm with hm | hm
    · exact hf e (List.mem_cons_of_mem _ he) k hm
    · have : e = d := by simpa [Item.label] using hm
      exact hn.1 (this ▸ he)

/-- C224: a call returns if the selection is not empty and names existing DUTs only once, if all these DUTs have track tables that can be read, whose
tracks have all angles, and if the first DUT along the beam has tracks. -/
theorem C224_returns (inp : Input) (hsort : ∀ z, SortsIndices z (inp.argsort z)) (z : List ℝ) (hz : Kalman.zIntersections inp.planes = some z)
    (select : List Int) (hs : select ≠ []) (hn : select.Nodup) (hb : inp.nBins ≠ 0)
    (hall : ∀ i ∈ select, ∃ d : Nat, i = (d : Int) ∧ Processable inp d)
    (hfirst : ∀ d sel, InOrder inp.planes select (d :: sel) → inp.tables d ≠ some []) (old : Option File) :
    (histogramTrackAngle inp select old).err = none := by
  have hl := (BTA.Props.zIntersections_get inp.planes z hz).1
  have hnd : (inp.argsort z).Nodup := (hsort z).1.nodup_iff.mpr List.nodup_range
  have hsn := selected_nodup select hn (inp.argsort z) hnd
  have hord := inOrder inp.planes select z _ hz (hsort z) hsn
  have hproc : ∀ d ∈ selected (inp.argsort z) select, Processable inp d := by
    intro d hd
    obtain ⟨e, he, hp⟩ := hall _ ((mem_selected _ _ _).mp hd).2
    have : d = e := Int.ofNat.inj he
    exact this ▸ hp
  unfold histogramTrackAngle
  rw [hz]
  dsimp only
  cases hsel : selected (inp.argsort z) select with
  | nil =>
    obtain ⟨i, hi⟩ := List.exists_mem_of_ne_nil select hs
    obtain ⟨d, rfl, rows, P, hP, -⟩ := hall i hi
    have : d ∈ selected (inp.argsort z) select := by
      rw [mem_selected, (hsort z).1.mem_iff, List.mem_range, hl]
      exact ⟨(List.getElem?_eq_some_iff.mp hP).1, hi⟩
    rw [hsel] at this
    cases this
  | cons d sel =>
    dsimp only
    rw [hsel] at hsn hord hproc
    have hne := hfirst d sel hord
    have hd := hproc d List.mem_cons_self
    rw [List.nodup_cons] at hsn
    obtain ⟨v, f, h1, h2, h3⟩ := loop_step inp hb ⟨true, d⟩ ((d :: sel).map fun d => ⟨false, d⟩) (fun _ => none) [] hd (Or.inl hne) (by simp)
    rw [h1, List.map_cons]
    have hf : ∀ (k : Kind) e, ((k, some e) : Name) ∉ f.map Prod.fst := by
      intro k e hm
      rcases h3 k _ hm with hm | hm
      · simp at hm
      · simp [Item.label] at hm
    obtain ⟨v', f', g1, g2, g3⟩ := loop_step inp hb ⟨false, d⟩ (sel.map fun d => ⟨false, d⟩) v f hd (Or.inl hne) (fun k => hf k d)
    rw [g1]
    refine loop_duts inp hb sel v' f' (fun e he => hproc e (List.mem_cons_of_mem _ he)) hsn.2 (fun k => g2 k (by cases k <;> simp [Item.kinds, globals, locals])) fun e he k hm => ?_
    rcases g3 k _ hm with hm | hm
    · exact hf k e hm
    · have : e = d := by simpa [Item.label] using hm
      exact hsn.1 (this ▸ he)

/-- C224: the order of the selection has no influence. -/
theorem C224_order (inp : Input) (select select' : List Int) (h : select.Perm select') (old : Option File) :
    histogramTrackAngle inp select old = histogramTrackAngle inp select' old := by
  have : ∀ o, selected o select = selected o select' := fun o => by
    unfold selected
    exact List.flatMap_congr fun d _ => by rw [h.count_eq]
  unfold histogramTrackAngle
  simp only [this]

/-- C224: numbers that are not numbers of DUTs are silently ignored. -/
theorem C224_ignored_fails (inp : Input) (hsort : ∀ z, SortsIndices z (inp.argsort z)) (select : List Int) (old : Option File) :
    histogramTrackAngle inp select old = histogramTrackAngle inp (select.filter fun i => decide (0 ≤ i ∧ i < inp.planes.length)) old := by
  unfold histogramTrackAngle
  cases hz : Kalman.zIntersections inp.planes with
  | none => rfl
  | some z =>
    dsimp only
    have hl := (BTA.Props.zIntersections_get inp.planes z hz).1
    have : selected (inp.argsort z) select = selected (inp.argsort z) (select.filter fun i => decide (0 ≤ i ∧ i < inp.planes.length)) := by
      unfold selected
      refine List.flatMap_congr fun d hd => ?_
      rw [(hsort z).1.mem_iff, List.mem_range, hl] at hd
      rw [List.count_filter (by simp; omega)]
    rw [this]

/-- C224: if a DUT is named twice, the call does not return. -/
theorem C224_twice_fails (inp : Input) (hsort : ∀ z, SortsIndices z (inp.argsort z)) (select : List Int) (d : Nat) (hd : d < inp.planes.length)
    (h2 : 2 ≤ select.count (d : Int)) (old : Option File) : (histogramTrackAngle inp select old).err ≠ none := by
  intro h
  cases hz : Kalman.zIntersections inp.planes with
  | none =>
    unfold histogramTrackAngle at h
    rw [hz] at h
    cases h
  | some z =>
    have hl := (BTA.Props.zIntersections_get inp.planes z hz).1
    have hn := (returned_nodup inp select old z hz h)
    have hd' : d ∈ inp.argsort z := by
      rw [(hsort z).1.mem_iff, List.mem_range, hl]
      exact hd
    unfold selected at hn
    rw [List.nodup_flatMap] at hn
    have := List.nodup_replicate.mp (hn.1 d hd')
    omega

/-- C224: without tracks of the first DUT along the beam, the call does not return. -/
theorem C224_first_fails (inp : Input) (hsort : ∀ z, SortsIndices z (inp.argsort z)) (hcs : 0 < inp.chunkSize) (select : List Int)
    (hfirst : ∀ d sel, InOrder inp.planes select (d :: sel) → inp.tables d = some []) (old : Option File) : (histogramTrackAngle inp select old).err ≠ none := by
  intro h
  obtain ⟨d, sel, tr, file, h1, -, h3, -⟩ := returned inp hsort select old h
  cases h3 with
  | cons hr hs _ =>
    have := readTable_empty inp d _ _ _ (hfirst d sel h1) hcs hr
    subst this
    have := hs .globalTotal (by simp [Item.kinds, globals])
    cases this

/-- C224: without selection the call raises an exception, after the output file has been emptied. -/
theorem C224_empty_fails (inp : Input) (z : List ℝ) (hz : Kalman.zIntersections inp.planes = some z) (old : Option File) :
    (histogramTrackAngle inp [] old).err = some .empty ∧ (histogramTrackAngle inp [] old).file = some [] := by
  unfold histogramTrackAngle
  rw [hz]
  have : selected (inp.argsort z) [] = [] := by
    unfold selected
    rw [List.flatMap_eq_nil_iff]
    intro d _
    rfl
  dsimp only
  rw [this]
  exact ⟨rfl, rfl⟩

theorem Run.step {inp : Input} {vars : Vars} {is : List Item} {tr : List (Item × Vars)} (h : Run inp vars is tr) :
    ∀ (t1 : List (Item × Vars)) p q t2, tr = t1 ++ p :: q :: t2 → readTable inp q.1.dut q.1.kinds p.2 = .ok q.2 := by
  induction h with
  | nil => intro t1 p q t2 he; exact absurd he (by simp)
  | cons h hs r ih =>
    intro t1 p q t2 he
    cases t1 with
    | nil =>
      rw [List.nil_append] at he
      injection he with e1 e2
      subst e1
      subst e2
      cases r with
      | cons h' _ _ => exact h'
    | cons x t1 =>
      rw [List.cons_append] at he
      injection he with e1 e2
      exact ih t1 p q t2 e2

theorem stored_unique {file : File} (hn : (file.map Prod.fst).Nodup) {name : Name} {a b : Stored} (ha : (name, a) ∈ file) (hb : (name, b) ∈ file) : a = b := by
  have := List.inj_on_of_nodup_map hn ha hb rfl
  injection this

/-- C224, false for empty track tables: if the track table of a DUT is empty, then the histograms and fits of the DUT before (along the beam) are
stored for it. -/
theorem C224_stale_fails (inp : Input) (hsort : ∀ z, SortsIndices z (inp.argsort z)) (hcs : 0 < inp.chunkSize) (select : List Int) (old : Option File)
    (h : (histogramTrackAngle inp select old).err = none) :
    ∃ sel file, InOrder inp.planes select sel ∧ (histogramTrackAngle inp select old).file = some file ∧
      ∀ l1 e' e l2, sel = l1 ++ e' :: e :: l2 → inp.tables e = some [] → ∀ k st st', ((k, some e'), st') ∈ file → ((k, some e), st) ∈ file → st = st' := by
  obtain ⟨d, sel, tr, file, h1, h2, h3, h4, h5, h6⟩ := returned inp hsort select old h
  refine ⟨d :: sel, file, h1, h2, ?_⟩
  intro l1 e' e l2 hs ht k st st' hm' hm
  have hi := h3.items
  rw [hs, List.map_append, List.map_cons, List.map_cons, ← List.cons_append, List.map_eq_append_iff] at hi
  obtain ⟨t1, t2, rfl, -, hi⟩ := hi
  obtain ⟨p, t3, rfl, hp, hi⟩ := List.map_eq_cons_iff.mp hi
  obtain ⟨q, t4, rfl, hq, -⟩ := List.map_eq_cons_iff.mp hi
  obtain ⟨pi, pv⟩ := p
  obtain ⟨qi, qv⟩ := q
  dsimp only at hp hq
  subst hp
  subst hq
  have hstep := h3.step t1 _ _ t4 rfl
  have hv := readTable_empty inp e _ pv qv ht hcs hstep
  subst hv
  rw [h4] at hm hm' h6
  have hk : k ∈ globals ++ locals := by cases k <;> decide
  obtain ⟨x, hx⟩ := Option.isSome_iff_exists.mp (h3.some (⟨false, e'⟩, qv) (by simp) k hk)
  have g' : ((k, some e'), ({ hist := x, curve := inp.fit x } : Stored)) ∈ (t1 ++ (⟨false, e'⟩, qv) :: (⟨false, e⟩, qv) :: t4).flatMap (fun p => nodes inp p.1 p.2) := by
    rw [List.mem_flatMap]
    exact ⟨(⟨false, e'⟩, qv), by simp, (mem_nodes inp _ _ _ _).mpr ⟨k, hk, x, hx, rfl, rfl⟩⟩
  have g : ((k, some e), ({ hist := x, curve := inp.fit x } : Stored)) ∈ (t1 ++ (⟨false, e'⟩, qv) :: (⟨false, e⟩, qv) :: t4).flatMap (fun p => nodes inp p.1 p.2) := by
    rw [List.mem_flatMap]
    exact ⟨(⟨false, e⟩, qv), by simp, (mem_nodes inp _ _ _ _).mpr ⟨k, hk, x, hx, rfl, rfl⟩⟩
  rw [stored_unique h6 hm g, stored_unique h6 hm' g']

theorem readTable_hist (inp : Input) (d : Nat) (kinds : List Kind) (vars vars' : Vars) (h : readTable inp d kinds vars = .ok vars') :
    vars' = vars ∧ (∃ rows, inp.tables d = some rows ∧ (dataAligned Row.event rows { chunkSize := inp.chunkSize }).items.map Prod.fst = []) ∨
    ∃ rows P, inp.tables d = some rows ∧ inp.planes[d]? = some P ∧ (dataAligned Row.event rows { chunkSize := inp.chunkSize }).items.map Prod.fst ≠ [] ∧
      ∀ k ∈ kinds, ∃ x, vars' k = some x ∧ angleHist inp.nBins
        (((dataAligned Row.event rows { chunkSize := inp.chunkSize }).items.map Prod.fst).map fun c => c.map (angleOf (place P) k)) = .ok (x.counts, x.edges) := by
  unfold readTable at h
  split at h
  · rename_i rows P ht hp
    dsimp only at h
    cases hc : (dataAligned Row.event rows { chunkSize := inp.chunkSize }).items.map Prod.fst with
    | nil =>
      rw [hc] at h
      dsimp only at h
      split at h
      · cases h
      · injection h with h
        exact Or.inl ⟨h.symm, rows, ht, hc⟩
    | cons c cs =>
      rw [hc] at h
      dsimp only at h
      split at h
      · cases h
      · rename_i v hv
        split at h
        · cases h
        · injection h with h
          subst h
          refine Or.inr ⟨rows, P, ht, hp, by rw [hc]; simp, fun k hk => ?_⟩
          rw [hc]
          exact (fillHists_ok inp (place P) (c :: cs) kinds vars v hv).1 k hk
  · cases h

/-- C224: the histograms of the telescope are those of the first DUT along the beam. -/
theorem C224_telescope (inp : Input) (hsort : ∀ z, SortsIndices z (inp.argsort z)) (select : List Int) (old : Option File)
    (h : (histogramTrackAngle inp select old).err = none) :
    ∃ d sel file, InOrder inp.planes select (d :: sel) ∧ (histogramTrackAngle inp select old).file = some file ∧
      ∀ k st st', ((k, none), st) ∈ file → ((k, some d), st') ∈ file → st = st' := by
  obtain ⟨d, sel, tr, file, h1, h2, h3, h4, h5, h6⟩ := returned inp hsort select old h
  refine ⟨d, sel, file, h1, h2, ?_⟩
  intro k st st' hm hm'
  have hi := h3.items
  rw [List.map_cons] at hi
  obtain ⟨p, t3, rfl, hp, hi⟩ := List.map_eq_cons_iff.mp hi
  obtain ⟨q, t4, rfl, hq, -⟩ := List.map_eq_cons_iff.mp hi
  obtain ⟨pi, pv⟩ := p
  obtain ⟨qi, qv⟩ := q
  dsimp only at hp hq
  subst hp
  subst hq
  have hk : k ∈ globals := by
    have : ((k, none) : Name) ∈ expectedNames (d :: sel) := h5 ▸ List.mem_map_of_mem (f := Prod.fst) hm
    unfold expectedNames at this
    rw [List.mem_append] at this
    rcases this with this | this
    · obtain ⟨k', hk', he⟩ := List.mem_map.mp this
      injection he with he
      exact he ▸ hk'
    · obtain ⟨e, -, he⟩ := List.mem_flatMap.mp this
      obtain ⟨k', -, he⟩ := List.mem_map.mp he
      injection he with _ he
      cases he
  have hk2 : k ∈ globals ++ locals := List.mem_append_left _ hk
  obtain ⟨x, hx⟩ := Option.isSome_iff_exists.mp (h3.some (⟨true, d⟩, pv) (by simp) k hk)
  obtain ⟨y, hy⟩ := Option.isSome_iff_exists.mp (h3.some (⟨false, d⟩, qv) (by simp) k hk2)
  dsimp only at hx hy
  have hr1 : readTable inp d globals (fun _ => none) = .ok pv := by
    cases h3 with
    | cons h _ _ => exact h
  have hr2 : readTable inp d (globals ++ locals) pv = .ok qv := h3.step [] _ _ t4 rfl
  have hxy : x = y := by
    rcases readTable_hist inp d _ _ _ hr1 with ⟨he, -⟩ | ⟨rows, P, ht, hP, hne, hall⟩
    · rw [he] at hx
      cases hx
    · rcases readTable_hist inp d _ _ _ hr2 with ⟨-, rows', ht', he'⟩ | ⟨rows', P', ht', hP', -, hall'⟩
      · rw [ht] at ht'
        injection ht' with ht'
        subst ht'
        exact absurd he' hne
      · rw [ht] at ht'
        injection ht' with ht'
        subst ht'
        rw [hP] at hP'
        injection hP' with hP'
        subst hP'
        obtain ⟨x', hx', ha⟩ := hall k hk
        obtain ⟨y', hy', hb⟩ := hall' k hk2
        rw [hx] at hx'
        rw [hy] at hy'
        injection hx' with hx'
        injection hy' with hy'
        subst hx'
        subst hy'
        rw [ha] at hb
        injection hb with hb
        injection hb with hb1 hb2
        cases x; cases y
        simp_all
  subst hxy
  have g : ((k, none), ({ hist := x, curve := inp.fit x } : Stored)) ∈ file := by
    rw [h4, List.mem_flatMap]
    exact ⟨(⟨true, d⟩, pv), by simp, (mem_nodes inp _ _ _ _).mpr ⟨k, hk, x, hx, rfl, rfl⟩⟩
  have g' : ((k, some d), ({ hist := x, curve := inp.fit x } : Stored)) ∈ file := by
    rw [h4, List.mem_flatMap]
    exact ⟨(⟨false, d⟩, qv), by simp, (mem_nodes inp _ _ _ _).mpr ⟨k, hk2, x, hy, rfl, rfl⟩⟩
  rw [stored_unique h6 hm g, stored_unique h6 hm' g']

/-! ### C225 -/

theorem lookup_some {file : File} {name : Name} {st : Stored} (h : file.lookup name = some st) : (name, st) ∈ file := by
  induction file with
  | nil => cases h
  | cons x xs ih =>
    obtain ⟨n, s⟩ := x
    rw [List.lookup_cons] at h
    cases hb : name == n with
    | true =>
      rw [hb] at h
      injection h with h
      rw [beq_iff_eq] at hb
      subst hb
      subst h
      exact List.mem_cons_self
    | false =>
      rw [hb] at h
      exact List.mem_cons_of_mem _ (ih h)

theorem lookup_isSome (file : File) (name : Name) : (file.lookup name).isSome ↔ name ∈ file.map Prod.fst := by
  induction file with
  | nil => simp
  | cons x xs ih =>
    obtain ⟨n, s⟩ := x
    rw [List.lookup_cons, List.map_cons, List.mem_cons]
    cases hb : name == n with
    | true =>
      rw [beq_iff_eq] at hb
      simp [hb]
    | false =>
      have : name ≠ n := by
        intro he
        rw [he, beq_self_eq_true] at hb
        cases hb
      simp only [this, false_or]
      exact ih

theorem widths_length : ∀ es : List ℝ, (widths es).length = es.length - 1
  | [] => rfl
  | [_] => rfl
  | a :: b :: es => by
    rw [widths, List.length_cons, widths_length (b :: es)]
    simp

theorem widths_get : ∀ (es : List ℝ) (i : Nat) (lo hi : ℝ), es[i]? = some lo → es[i + 1]? = some hi → (widths es)[i]? = some (hi - lo)
  | [], i, lo, hi, h, _ => by simp at h
  | [_], i, lo, hi, _, h => by simp at h
  | a :: b :: es, 0, lo, hi, h, h' => by
    simp only [List.getElem?_cons_zero, List.getElem?_cons_succ, zero_add, Option.some.injEq] at h h'
    subst h h'
    rfl
  | a :: b :: es, i + 1, lo, hi, h, h' => by
    rw [widths, List.getElem?_cons_succ]
    exact widths_get (b :: es) i lo hi (by simpa using h) (by simpa using h')

theorem gauss_scaled (A mu sigma x : ℝ) : GaussFit.gauss A (mu * 1000) (sigma * 1000) (1000 * x) = GaussFit.gauss A mu sigma x := by
  unfold GaussFit.gauss
  by_cases hs : sigma = 0
  · subst hs
    rw [if_pos (by simp), if_pos rfl]
    by_cases hx : x = mu
    · subst hx
      rw [if_pos (by ring), if_pos rfl]
    · rw [if_neg (fun h => hx (by linarith)), if_neg hx]
  · rw [if_neg (by simpa using hs), if_neg hs]
    congr 3
    field_simp

theorem page_ok (file : File) (name : Name) (p : Page) (h : page file name = .ok p) : p.name = name ∧ ∃ st, (name, st) ∈ file ∧ ShowsStored st p := by
  unfold page at h
  split at h
  · cases h
  · rename_i st hst
    injection h with h
    subst h
    refine ⟨rfl, st, lookup_some hst, ?_, ?_, rfl, ?_, ?_⟩
    · intro i lo hi hlo hhi
      refine ⟨(lo * 1000 + hi * 1000) / 2, hi * 1000 - lo * 1000, ?_, ?_, by ring, by ring⟩
      · rw [centres_get]
        exact ⟨lo * 1000, hi * 1000, by rw [List.getElem?_map, hlo]; rfl, by rw [List.getElem?_map, hhi]; rfl, by ring⟩
      · exact widths_get _ i _ _ (by rw [List.getElem?_map, hlo]; rfl) (by rw [List.getElem?_map, hhi]; rfl)
    · dsimp only
      rw [centres_length, widths_length, List.length_map]
      exact ⟨rfl, rfl⟩
    · dsimp only
      rw [Option.map_eq_none_iff]
    · intro A mu sigma hc
      refine ⟨mu * 1000, sigma * 1000, ?_, fun x => gauss_scaled A mu sigma x⟩
      dsimp only
      rw [hc]
      rfl

theorem page_exists (file : File) (name : Name) : (∃ p, page file name = .ok p) ↔ name ∈ file.map Prod.fst := by
  rw [← lookup_isSome]
  unfold page
  cases file.lookup name with
  | none => simp
  | some st => simp

theorem pages_ok (file : File) : ∀ (names : List Name) (ps : List Page), pages file names = .ok ps →
    ps.map Page.name = names ∧ ∀ p ∈ ps, ∃ st, (p.name, st) ∈ file ∧ ShowsStored st p
  | [], ps, h => by
    rw [pages] at h
    injection h with h
    subst h
    simp
  | name :: names, ps, h => by
    rw [pages] at h
    split at h
    · cases h
    · rename_i p hp
      split at h
      · cases h
      · rename_i qs hq
        injection h with h
        subst h
        obtain ⟨h1, st, h2, h3⟩ := page_ok file name p hp
        obtain ⟨h4, h5⟩ := pages_ok file names qs hq
        refine ⟨by rw [List.map_cons, h1, h4], ?_⟩
        intro r hr
        rcases List.mem_cons.mp hr with rfl | hr
        · exact ⟨st, h1 ▸ h2, h3⟩
        · exact h5 r hr

theorem pages_exists (file : File) : ∀ names : List Name, (∃ ps, pages file names = .ok ps) ↔ ∀ name ∈ names, name ∈ file.map Prod.fst
  | [] => by simp [pages]
  | name :: names => by
    rw [pages, List.forall_mem_cons, ← page_exists, ← pages_exists file names]
    cases page file name with
    | error e => simp
    | ok p =>
      cases pages file names with
      | error e => simp
      | ok ps => simp

theorem plotDuts_ok (n : Nat) (file : File) : ∀ (select : List Int) (ps : List Page), plotDuts n file select = .ok ps →
    ps.map Page.name = (select.flatMap fun i => (globals ++ locals).map fun k => (k, some i.toNat)) ∧ ∀ p ∈ ps, ∃ st, (p.name, st) ∈ file ∧ ShowsStored st p
  | [], ps, h => by
    rw [plotDuts] at h
    injection h with h
    subst h
    simp
  | i :: is, ps, h => by
    rw [plotDuts] at h
    split at h
    · cases h
    · split at h
      · cases h
      · split at h
        · cases h
        · rename_i qs hq
          split at h
          · cases h
          · rename_i rs hr
            injection h with h
            subst h
            obtain ⟨h1, h2⟩ := pages_ok file _ qs hq
            obtain ⟨h3, h4⟩ := plotDuts_ok n file is rs hr
            refine ⟨by rw [List.map_append, h1, h3, List.flatMap_cons], fun p hp => ?_⟩
            rcases List.mem_append.mp hp with hp | hp
            · exact h2 p hp
            · exact h4 p hp

theorem plotDuts_exists (n : Nat) (file : File) : ∀ select : List Int, (∃ ps, plotDuts n file select = .ok ps) ↔
    ∀ i ∈ select, 0 ≤ i ∧ i < (n : Int) ∧ ∀ k, (k, some i.toNat) ∈ file.map Prod.fst
  | [] => by simp [plotDuts]
  | i :: is => by
    rw [plotDuts, List.forall_mem_cons, ← plotDuts_exists n file is]
    by_cases h1 : i < -(n : Int) ∨ (n : Int) ≤ i
    · rw [if_pos h1]
      simp only [reduceCtorEq, exists_false, false_iff]
      rintro ⟨h, -⟩
      omega
    · rw [if_neg h1]
      by_cases h2 : i < 0
      · rw [if_pos h2]
        simp only [reduceCtorEq, exists_false, false_iff]
        rintro ⟨h, -⟩
        omega
      · rw [if_neg h2]
        have hp := pages_exists file ((globals ++ locals).map fun k => (k, some i.toNat))
        rw [List.forall_mem_map] at hp
        have hall : (∀ k ∈ globals ++ locals, ((k, some i.toNat) : Name) ∈ file.map Prod.fst) ↔ ∀ k, ((k, some i.toNat) : Name) ∈ file.map Prod.fst :=
          ⟨fun h k => h k (by cases k <;> decide), fun h k _ => h k⟩
        rw [hall] at hp
        have hi : 0 ≤ i ∧ i < (n : Int) := by omega
        rw [← hp]
        cases pages file ((globals ++ locals).map fun k => (k, some i.toNat)) with
        | error e => simp
        | ok ps =>
          cases plotDuts n file is with
          | error e => simp
          | ok qs => simp [hi]

/-- C225: the plots of a file: first the three global angles for the telescope, then the six angles of each selected DUT in the order of the selection.
Every page shows the stored histogram with its name and the stored Gaussian in mrad. -/
theorem C225_pages (n : Nat) (select : List Int) (file : File) (ps : List Page) (h : plotTrackAngle n select file = .ok ps) :
    ps.map Page.name = (globals.map fun k => (k, none)) ++ (select.flatMap fun i => (globals ++ locals).map fun k => (k, some i.toNat)) ∧
    ∀ p ∈ ps, ∃ st, (p.name, st) ∈ file ∧ ShowsStored st p := by
  unfold plotTrackAngle at h
  split at h
  · cases h
  · rename_i qs hq
    split at h
    · cases h
    · rename_i rs hr
      injection h with h
      subst h
      obtain ⟨h1, h2⟩ := pages_ok file _ qs hq
      obtain ⟨h3, h4⟩ := plotDuts_ok n file select rs hr
      refine ⟨by rw [List.map_append, h1, h3], fun p hp => ?_⟩
      rcases List.mem_append.mp hp with hp | hp
      · exact h2 p hp
      · exact h4 p hp

theorem plot_exists (n : Nat) (select : List Int) (file : File) : (∃ ps, plotTrackAngle n select file = .ok ps) ↔
    (∀ k ∈ globals, (k, none) ∈ file.map Prod.fst) ∧ ∀ i ∈ select, 0 ≤ i ∧ i < (n : Int) ∧ ∀ k, (k, some i.toNat) ∈ file.map Prod.fst := by
  rw [← plotDuts_exists n file select]
  have hp := pages_exists file (globals.map fun k => (k, none))
  rw [List.forall_mem_map] at hp
  rw [← hp]
  unfold plotTrackAngle
  cases pages file (globals.map fun k => (k, none)) with
  | error e => simp
  | ok ps =>
    cases plotDuts n file select with
    | error e => simp
    | ok qs => simp

/-- C225: after `histogram_track_angle` has written the file, the plots of the same selection succeed iff all selected numbers are numbers of DUTs. -/
theorem C225_succeeds_iff (inp : Input) (hsort : ∀ z, SortsIndices z (inp.argsort z)) (select : List Int) (old : Option File) (file : File)
    (h : histogramTrackAngle inp select old = { file := some file, err := none }) :
    (∃ ps, plotTrackAngle inp.planes.length select file = .ok ps) ↔ ∀ i ∈ select, 0 ≤ i ∧ i < (inp.planes.length : Int) := by
  obtain ⟨d, sel, tr, file', h1, h2, h3, h4, h5, h6⟩ := returned inp hsort select old (by rw [h])
  rw [h] at h2
  injection h2 with h2
  subst h2
  rw [plot_exists, h5]
  unfold expectedNames
  constructor
  · rintro ⟨-, hall⟩ i hi
    exact ⟨(hall i hi).1, (hall i hi).2.1⟩
  · intro hall
    refine ⟨fun k hk => List.mem_append_left _ (List.mem_map.mpr ⟨k, hk, rfl⟩), fun i hi => ?_⟩
    obtain ⟨g1, g2⟩ := hall i hi
    refine ⟨g1, g2, fun k => List.mem_append_right _ (List.mem_flatMap.mpr ⟨i.toNat, ?_, List.mem_map.mpr ⟨k, by cases k <;> decide, rfl⟩⟩)⟩
    rw [h1.mem]
    have : ((i.toNat : Nat) : Int) = i := Int.toNat_of_nonneg g1
    exact ⟨by omega, this ▸ hi⟩

/-! ### Example -/

noncomputable def exTracks : List Row := [⟨1, some ![1, 0, 10]⟩, ⟨2, some ![0, 1, 10]⟩]

/-- Two DUTs, the second one in front of the first. The second one has two tracks. -/
noncomputable def exInput (argsort : List ℝ → List Nat) (table0 : List Row) : Input :=
  { planes := [BTA.Props.flat 20, BTA.Props.flat 0], argsort := argsort, tables := fun d => if d = 0 then some table0 else if d = 1 then some exTracks else none,
    nBins := 100, chunkSize := 10, fit := fun _ => none }

theorem ex_readable : ReadableRows 10 exTracks := by
  refine ⟨by simp [SortedBy, exTracks], fun e => ?_⟩
  have : BTA.Spec.multiplicity Row.event exTracks e ≤ exTracks.length := by
    unfold BTA.Spec.multiplicity
    exact List.length_filter_le _ _
  exact lt_of_le_of_lt this (by simp [exTracks])

theorem ex_angles (z : ℝ) : ∀ r ∈ exTracks, ∀ k, (angleOf (place (BTA.Props.flat z)) k r).isSome := by
  have hg : ∀ s : Vec3, globalSlope (place (BTA.Props.flat z)) s = s := by
    intro s
    unfold globalSlope place BTA.Props.flat
    rw [apply_localToGlobal]
    ext i
    fin_cases i <;> simp [rotationMatrix_eq, Matrix.mulVec, dotProduct, Fin.sum_univ_succ]
  have key : ∀ s : Vec3, s 2 ≠ 0 → (trackAngles s).total.isSome ∧ (trackAngles s).alpha.isSome ∧ (trackAngles s).beta.isSome := by
    intro s hs
    obtain ⟨h1, h2, h3⟩ := BTA.Angle.Props.C113_nan s
    refine ⟨?_, ?_, ?_⟩ <;> rw [Option.isSome_iff_ne_none]
    · exact fun h => hs (by rw [h1.mp h]; rfl)
    · exact fun h => hs (h2.mp h).2
    · exact fun h => hs (h3.mp h).2
  intro r hr k
  have : ∃ s : Vec3, r.slope = some s ∧ s 2 ≠ 0 := by
    simp only [exTracks, List.mem_cons, List.not_mem_nil, or_false] at hr
    rcases hr with rfl | rfl
    · exact ⟨_, rfl, by simp⟩
    · exact ⟨_, rfl, by simp⟩
  obtain ⟨s, hs, hz⟩ := this
  obtain ⟨k1, k2, k3⟩ := key s hz
  unfold angleOf
  rw [hs]
  cases k <;> simp only [hg] <;> assumption

theorem ex_first (argsort : List ℝ → List Nat) (table0 : List Row) (d : Nat) (sel : List Nat) (h : InOrder (exInput argsort table0).planes [0, 1] (d :: sel)) :
    d = 1 ∧ sel = [0] := by
  have hmem : ∀ e, e ∈ d :: sel ↔ e = 0 ∨ e = 1 := by
    intro e
    rw [h.mem]
    simp only [exInput, List.length_cons, List.length_nil, List.mem_cons, List.not_mem_nil, or_false]
    omega
  have hz : ∀ (x z : ℝ), OnPlane (BTA.Props.flat x).pos (planeNormalOf (BTA.Props.flat x)) ![0, 0, z] → z = x := by
    intro x z hx
    unfold OnPlane at hx
    rw [BTA.Props.flat_normal] at hx
    simp [Geo.dot, BTA.Props.flat] at hx
    linarith
  have hn := h.once
  rw [List.nodup_cons] at hn
  have hs := List.pairwise_cons.mp h.sorted
  have hd : d = 1 := by
    rcases (hmem d).mp List.mem_cons_self with hd | hd
    · exfalso
      subst hd
      have h1 : 1 ∈ sel := by
        have := (hmem 1).mpr (Or.inr rfl)
        simpa using this
      obtain ⟨P, Q, z, z', hP, hQ, p1, q1, hle⟩ := hs.1 1 h1
      simp only [exInput, List.getElem?_cons_zero, List.getElem?_cons_succ, Option.some.injEq] at hP hQ
      subst hP
      subst hQ
      rw [hz _ _ p1, hz _ _ q1] at hle
      norm_num at hle
    · exact hd
  subst hd
  refine ⟨rfl, ?_⟩
  have hall : ∀ e ∈ sel, e = 0 := by
    intro e he
    rcases (hmem e).mp (List.mem_cons_of_mem _ he) with h0 | h1
    · exact h0
    · exact absurd (h1 ▸ he) hn.1
  have h0 : 0 ∈ sel := by
    have := (hmem 0).mpr (Or.inl rfl)
    simpa using this
  have := List.eq_replicate_iff.mpr ⟨rfl, hall⟩
  have hle : sel.length ≤ 1 := by
    rw [this] at hn
    exact List.nodup_replicate.mp hn.2
  have hge : 0 < sel.length := List.length_pos_of_mem h0
  rw [this, show sel.length = 1 by omega]
  rfl

theorem ex_returns (argsort : List ℝ → List Nat) (hsort : ∀ z, SortsIndices z (argsort z)) (table0 : List Row) (h0 : table0 = [] ∨ table0 = exTracks) (select : List Int)
    (hsel : select = [0, 1]) : (histogramTrackAngle (exInput argsort table0) select none).err = none := by
  subst hsel
  obtain ⟨z, hz, -⟩ := BTA.Props.zIntersections_some (exInput argsort table0).planes (by
    intro P hP
    simp only [exInput, List.mem_cons, List.not_mem_nil, or_false] at hP
    unfold Crosses
    rcases hP with rfl | rfl <;> rw [BTA.Props.flat_normal] <;> simp [Geo.dot])
  refine C224_returns _ hsort z hz _ (by simp) (by decide) (by simp [exInput]) ?_ ?_ none
  · intro i hi
    simp only [List.mem_cons, List.not_mem_nil, or_false] at hi
    rcases hi with rfl | rfl
    · refine ⟨0, rfl, table0, BTA.Props.flat 20, rfl, rfl, ?_, ?_⟩
      · rcases h0 with rfl | rfl
        · exact ⟨by simp [SortedBy], fun e => by simp [BTA.Spec.multiplicity, exInput]⟩
        · exact ex_readable
      · rcases h0 with rfl | rfl
        · intro r hr; cases hr
        · exact ex_angles 20
    · exact ⟨1, rfl, exTracks, BTA.Props.flat 0, rfl, rfl, ex_readable, ex_angles 0⟩
  · intro d sel h
    obtain ⟨rfl, -⟩ := ex_first _ _ _ _ h
    simp [exInput, exTracks]

/-- The file is written for two DUTs with tracks, the plots succeed. -/
example : ∃ argsort file ps, (∀ z, SortsIndices z (argsort z)) ∧ histogramTrackAngle (exInput argsort exTracks) [0, 1] none = { file := some file, err := none } ∧
    plotTrackAngle 2 [0, 1] file = .ok ps := by
  obtain ⟨argsort, hsort⟩ := BTA.Props.exists_argsort
  have hr := ex_returns argsort hsort exTracks (Or.inr rfl) _ rfl
  obtain ⟨_, _, file, -, hf, -⟩ := C224_telescope _ hsort _ none hr
  have he : histogramTrackAngle (exInput argsort exTracks) [0, 1] none = { file := some file, err := none } := by
    cases hh : histogramTrackAngle (exInput argsort exTracks) [0, 1] none with
    | mk f e =>
      rw [hh] at hf hr
      dsimp only at hf hr
      rw [hf, hr]
  obtain ⟨ps, hps⟩ := (C225_succeeds_iff _ hsort _ none file he).mpr (by simp [exInput])
  exact ⟨argsort, file, ps, hsort, he, hps⟩

/-- If the last DUT along the beam has no tracks, the call returns too, and this DUT has the histograms of the other one. -/
example : ∃ argsort file, (∀ z, SortsIndices z (argsort z)) ∧ (histogramTrackAngle (exInput argsort []) [0, 1] none).err = none ∧
    (histogramTrackAngle (exInput argsort []) [0, 1] none).file = some file ∧
    ∀ k st st', ((k, some 1), st') ∈ file → ((k, some 0), st) ∈ file → st = st' := by
  obtain ⟨argsort, hsort⟩ := BTA.Props.exists_argsort
  have hr := ex_returns argsort hsort [] (Or.inl rfl) _ rfl
  obtain ⟨sel, file, h1, h2, h3⟩ := C224_stale_fails _ hsort (by simp [exInput]) _ none hr
  refine ⟨argsort, file, hsort, hr, h2, ?_⟩
  cases sel with
  | nil =>
    have := (h1.mem 0).mpr (by simp [exInput])
    cases this
  | cons d sel =>
    obtain ⟨rfl, rfl⟩ := ex_first _ _ _ _ h1
    exact h3 [] 1 0 [] rfl rfl

end BTA.AngleFile.Props
