import Verif.Lemmas.FitArgs
import Verif.Props.FitTracks
/-
Properties of the arguments of `fit_tracks`: C148, C149.
-/
namespace BTA.FitArgs.Props
open BTA.Fit BTA.FitArgs BTA.FitArgs.Spec

theorem build_maps (ds : List Nat) (fs hs : List (List Nat)) (es : List Bool) (ks : List (Option Nat)) (h1 : fs.length = ds.length)
    (h2 : hs.length = ds.length) (h3 : es.length = ds.length) (h4 : ks.length = ds.length) :
    (build ds fs hs es ks).length = ds.length ∧ (build ds fs hs es ks).map DutCfg.dut = ds ∧
      (build ds fs hs es ks).map DutCfg.fitDuts = fs ∧ (build ds fs hs es ks).map DutCfg.hitDuts = hs ∧
      (build ds fs hs es ks).map DutCfg.exclude = es ∧ (build ds fs hs es ks).map DutCfg.minHits = ks := by
  induction ds generalizing fs hs es ks with
  | nil =>
    simp only [List.length_nil, List.length_eq_zero_iff] at h1 h2 h3 h4
    subst h1 h2 h3 h4
    exact ⟨rfl, rfl, rfl, rfl, rfl, rfl⟩
  | cons d ds ih =>
    cases fs with
    | nil => cases h1
    | cons f fs => cases hs with
      | nil => cases h2
      | cons h hs => cases es with
        | nil => cases h3
        | cons e es => cases ks with
          | nil => cases h4
          | cons k ks =>
            simp only [List.length_cons, Nat.add_right_cancel_iff] at h1 h2 h3 h4
            obtain ⟨a, b, c, d', e', f'⟩ := ih fs hs es ks h1 h2 h3 h4
            simp only [build, List.length_cons, List.map_cons, a, b, c, d', e', f', and_self]

theorem build_self (cfgs : List DutCfg) : build (cfgs.map DutCfg.dut) (cfgs.map DutCfg.fitDuts) (cfgs.map DutCfg.hitDuts)
    (cfgs.map DutCfg.exclude) (cfgs.map DutCfg.minHits) = cfgs := by
  induction cfgs with
  | nil => rfl
  | cons c cfgs ih => simp only [List.map_cons, build, ih]

theorem listMeans_length {n m : Nat} {default : List Nat} {v : Py} {ls : List (List Nat)} (h : ListMeans n m default v ls) : ls.length = m := by
  cases h with
  | nothing => simp
  | same _ _ => simp
  | each l _ hl h => rw [← h.length_eq, hl]
  | eachTuple l _ hl h => rw [← h.length_eq, hl]

theorem excludeMeans_length {m : Nat} {v : Py} {bs : List Bool} (h : ExcludeMeans m v bs) : bs.length = m := by
  cases h with
  | same b => simp
  | each => assumption

theorem minMeans_length {m : Nat} {v : Py} {ks : List (Option Nat)} (h : MinMeans m v ks) : ks.length = m := by
  cases h with
  | same => simp
  | each => rename_i hl hf; rw [← hf.length_eq, hl]

theorem forall₂_duts_lt {n : Nat} {l : List Py} {ds : List Nat} (h : List.Forall₂ (IsDut n) l ds) : ∀ d ∈ ds, d < n := by
  induction h with
  | nil => simp
  | cons h _ ih =>
    intro d hd
    rcases List.mem_cons.mp hd with rfl | hd
    · exact h.1
    · exact ih d hd

theorem selectMeans_lt {n : Nat} {v : Py} {ds : List Nat} : SelectMeans n v ds → ∀ d ∈ ds, d < n
  | .all => fun _ hd => List.mem_range.mp hd
  | .one _ _ h => fun _ hd => (List.mem_singleton.mp hd) ▸ h.1
  | .many _ _ ⟨_, _, h⟩ _ => forall₂_duts_lt h

theorem settings_ok (n : Nat) (a : Args) (s : Settings) : settings n a = .ok s ↔ ∃ ds fs hs es ks, FitArgs.selectDuts n a.selectDuts = .ok ds ∧
    fitDuts n ds.length a.selectFitDuts = .ok fs ∧ hitDuts n ds.length a.selectHitDuts = .ok hs ∧
    distances .quality n a.qualityDistances = .ok s.quality ∧ distances .isolation n a.isolationDistances = .ok s.isolation ∧
    excludes ds.length a.excludeDutHit = .ok es ∧ FitArgs.minHits ds.length a.minTrackHits = .ok ks ∧ s.cfgs = build ds fs hs es ks := by
  unfold settings
  constructor
  · intro h
    cases h1 : FitArgs.selectDuts n a.selectDuts with
    | error e => rw [h1] at h; cases h
    | ok ds =>
      rw [h1] at h; dsimp only at h
      cases h2 : fitDuts n ds.length a.selectFitDuts with
      | error e => rw [h2] at h; cases h
      | ok fs =>
        rw [h2] at h; dsimp only at h
        cases h3 : hitDuts n ds.length a.selectHitDuts with
        | error e => rw [h3] at h; cases h
        | ok hs =>
          rw [h3] at h; dsimp only at h
          cases h4 : distances .quality n a.qualityDistances with
          | error e => rw [h4] at h; cases h
          | ok qs =>
            rw [h4] at h; dsimp only at h
            cases h5 : distances .isolation n a.isolationDistances with
            | error e => rw [h5] at h; cases h
            | ok is =>
              rw [h5] at h; dsimp only at h
              cases h6 : excludes ds.length a.excludeDutHit with
              | error e => rw [h6] at h; cases h
              | ok es =>
                rw [h6] at h; dsimp only at h
                cases h7 : FitArgs.minHits ds.length a.minTrackHits with
                | error e => rw [h7] at h; cases h
                | ok ks =>
                  rw [h7] at h; dsimp only at h
                  injection h with h
                  subst h
                  exact ⟨ds, fs, hs, es, ks, rfl, h2, h3, rfl, rfl, h6, h7, rfl⟩
  · rintro ⟨ds, fs, hs, es, ks, h1, h2, h3, h4, h5, h6, h7, h8⟩
    rw [h1]; dsimp only
    rw [h2]; dsimp only
    rw [h3]; dsimp only
    rw [h4]; dsimp only
    rw [h5]; dsimp only
    rw [h6]; dsimp only
    rw [h7]; dsimp only
    rw [← h8]

theorem telescope_ne (n : Nat) (v : Py) (ds : List Nat) (h : SelectMeans n v ds) (hd : ds ≠ []) : n ≠ 0 := by
  rintro rfl
  obtain ⟨d, hm⟩ := List.exists_mem_of_ne_nil _ hd
  exact absurd (selectMeans_lt h d hm) (Nat.not_lt_zero _)

/-! ### C148 -/

/-- C148: if at least one DUT is selected, the arguments are accepted exactly if they have one of the documented forms, and each selected
DUT gets the settings they denote. -/
theorem C148_meaning (n : Nat) (a : Args) (s : Settings) (hs : s.cfgs ≠ []) : settings n a = .ok s ↔ Means n a s := by
  rw [settings_ok]
  constructor
  · rintro ⟨ds, fs, hs', es, ks, h1, h2, h3, h4, h5, h6, h7, h8⟩
    rw [selectDuts_ok] at h1
    have hd : ds ≠ [] := by
      rintro rfl
      rw [h8] at hs
      exact hs rfl
    have hm : ds.length ≠ 0 := fun h => hd (List.length_eq_zero_iff.mp h)
    have hn := telescope_ne n _ ds h1 hd
    rw [fitDuts_ok n _ hm] at h2
    rw [hitDuts_ok n _ hm] at h3
    rw [distances_ok _ n hn] at h4 h5
    rw [excludes_ok _ hm] at h6
    rw [minHits_ok _ hm] at h7
    have l6 := excludeMeans_length h6
    have l7 := minMeans_length h7
    obtain ⟨e0, e1, e2, e3, e4, e5⟩ := build_maps ds fs hs' es ks (listMeans_length h2.1) (listMeans_length h3) l6 l7
    rw [← h8] at e0 e1 e2 e3 e4 e5
    refine ⟨hn, by rw [e1]; exact h1, by rw [e0, e2]; exact h2.1, fun c hc => h2.2 _ ?_, by rw [e0, e3]; exact h3,
      by rw [e0, e4]; exact h6, by rw [e0, e5]; exact h7, h4, h5⟩
    rw [← e2]
    exact List.mem_map_of_mem hc
  · intro h
    have hm : (s.cfgs.map DutCfg.dut).length ≠ 0 := by
      rw [List.length_map]
      exact fun h => hs (List.length_eq_zero_iff.mp h)
    refine ⟨_, _, _, _, _, (selectDuts_ok n _ _).mpr h.duts, (fitDuts_ok n _ hm _ (s.cfgs.map DutCfg.fitDuts)).mpr ⟨?_, ?_⟩,
      (hitDuts_ok n _ hm _ (s.cfgs.map DutCfg.hitDuts)).mpr ?_, (distances_ok _ n h.telescope _ _).mpr h.quality,
      (distances_ok _ n h.telescope _ _).mpr h.isolation, (excludes_ok _ hm _ (s.cfgs.map DutCfg.exclude)).mpr ?_,
      (minHits_ok _ hm _ (s.cfgs.map DutCfg.minHits)).mpr ?_, (build_self s.cfgs).symm⟩
    · rw [List.length_map]; exact h.fit
    · intro l hl
      obtain ⟨c, hc, rfl⟩ := List.mem_map.mp hl
      exact h.two c hc
    · rw [List.length_map]; exact h.hit
    · rw [List.length_map]; exact h.exclude
    · rw [List.length_map]; exact h.minHits

/-- C148: the settings without any arguments. For each DUT all the other DUTs are used for the fit, and all of them must have a hit. -/
theorem C148_default (n : Nat) (hn : 2 ≤ n) : ∃ s, settings n {} = .ok s ∧ s.cfgs.map DutCfg.dut = List.range n ∧
    ∀ c ∈ s.cfgs, c.hitDuts = [] ∧ (∀ d, d ∈ effectiveFit c ↔ d < n ∧ d ≠ c.dut) ∧ actualMinHits c = n - 1 := by
  refine ⟨⟨(List.range n).map fun d => ⟨d, List.range n, [], true, none⟩, List.replicate n (some (250, 250)),
    List.replicate n (some (500, 500))⟩, ?_, ?_, ?_⟩
  · have hne : ((List.range n).map fun d => (⟨d, List.range n, [], true, none⟩ : DutCfg)) ≠ [] := by
      intro h
      have := congrArg List.length h
      simp at this
      omega
    refine (C148_meaning n {} _ hne).mpr ⟨by omega, ?_, ?_, ?_, ?_, ?_, ?_, ?_, ?_⟩
    · have : ((List.range n).map fun d => (⟨d, List.range n, [], true, none⟩ : DutCfg)).map DutCfg.dut = List.range n := by
        rw [List.map_map]; exact List.map_id _
      rw [this]
      exact .all
    · simp only [List.map_map, List.length_map, List.length_range]
      have : (List.range n).map (DutCfg.fitDuts ∘ fun d => (⟨d, List.range n, [], true, none⟩ : DutCfg)) =
          List.replicate n (List.range n) := by
        simp [Function.comp_def]
      rw [this]
      exact .nothing
    · intro c hc
      obtain ⟨d, -, rfl⟩ := List.mem_map.mp hc
      simpa using hn
    · simp only [List.map_map, List.length_map, List.length_range]
      have : (List.range n).map (DutCfg.hitDuts ∘ fun d => (⟨d, List.range n, [], true, none⟩ : DutCfg)) = List.replicate n [] := by
        simp [Function.comp_def]
      rw [this]
      exact .nothing
    · simp only [List.map_map, List.length_map, List.length_range]
      have : (List.range n).map (DutCfg.exclude ∘ fun d => (⟨d, List.range n, [], true, none⟩ : DutCfg)) = List.replicate n true := by
        simp [Function.comp_def]
      rw [this]
      exact .same true
    · simp only [List.map_map, List.length_map, List.length_range]
      have : (List.range n).map (DutCfg.minHits ∘ fun d => (⟨d, List.range n, [], true, none⟩ : DutCfg)) = List.replicate n none := by
        simp [Function.comp_def]
      rw [this]
      exact .same .none none (.inl ⟨rfl, rfl⟩)
    · exact .same _ (250, 250) ⟨_, _, .inr rfl, .inl rfl, .inl rfl⟩
    · exact .same _ (500, 500) ⟨_, _, .inr rfl, .inl rfl, .inl rfl⟩
  · rw [List.map_map]; exact List.map_id _
  · intro c hc
    obtain ⟨d, hd, rfl⟩ := List.mem_map.mp hc
    rw [List.mem_range] at hd
    have he : effectiveFit ⟨d, List.range n, [], true, none⟩ = (List.range n).filter fun x => x ≠ d := by
      unfold effectiveFit
      dsimp only
      rw [if_pos rfl, List.nodup_range.dedup]
    refine ⟨rfl, fun x => ?_, ?_⟩
    · rw [he]
      simp
    · unfold actualMinHits
      rw [he]
      have : ((List.range n).filter fun x => x ≠ d) = (List.range n).erase d := by
        rw [List.nodup_range.erase_eq_filter]
        refine List.filter_congr fun x _ => ?_
        by_cases h : x = d <;> simp [h]
      rw [this, Option.getD_none, List.length_erase_of_mem (List.mem_range.mpr hd), List.length_range]

variable {K R : Type} [Field K] [LinearOrder K]

/-- C148: without arguments `fit_tracks` cannot be used for a telescope of less than three DUTs. -/
theorem C148_default_small (est : Finset Nat → Cand K → Nat → Est K R) (planes : List (Plane K)) (keepData kalman : Bool) (S : Sampling)
    (maxEvents cs : Nat) (T : List (Cand K)) (h : planes.length < 3) :
    ∃ e, fitTracksCall est planes keepData kalman S maxEvents cs T {} = .error e := by
  unfold fitTracksCall
  by_cases h2 : 2 ≤ planes.length
  · obtain ⟨s, hs, hd, hc⟩ := C148_default planes.length h2
    rw [hs]
    dsimp only
    cases hcf : s.cfgs with
    | nil =>
      rw [hcf] at hd
      have := congrArg List.length hd
      simp at this
      omega
    | cons c rest =>
      have hmin := (hc c (by rw [hcf]; exact List.mem_cons_self)).2.2
      have hnd : ((c :: rest).map DutCfg.dut).Nodup := by
        rw [← hcf, hd]
        exact List.nodup_range
      refine ⟨.fit .tooFewHits, ?_⟩
      have : fitTracks est (planesOf planes s) keepData kalman S maxEvents cs T (c :: rest) = .error .tooFewHits := by
        unfold fitTracks
        rw [if_neg (not_not.mpr hnd)]
        unfold groupLoop
        rw [if_neg List.not_mem_nil]
        dsimp only
        unfold fitGroup
        rw [if_pos (by omega)]
      rw [this]
  · cases hs : settings planes.length {} with
    | error e => exact ⟨.args e, rfl⟩
    | ok s =>
      dsimp only
      by_cases h0 : s.cfgs = []
      · exfalso
        rw [settings_ok] at hs
        obtain ⟨ds, fs, hs', es, ks, h1, h3, -, h4, -⟩ := hs
        by_cases hp : planes.length = 0
        · rw [hp] at h4
          unfold distances at h4
          simp [tupleOrNone] at h4
        · have hp1 : planes.length = 1 := by omega
          rw [hp1] at h1 h3
          have : ds = [0] := by
            have : FitArgs.selectDuts 1 .none = .ok [0] := by decide +kernel
            rw [this] at h1
            injection h1 with h1
            exact h1.symm
          subst this
          have h5 : fitDuts 1 1 .none = .error .fitDuts := by decide +kernel
          rw [List.length_singleton, h5] at h3
          cases h3
      · exfalso
        have hm := (C148_meaning _ _ _ h0).mp hs
        obtain ⟨c, hc⟩ := List.exists_mem_of_ne_nil _ h0
        have h3 := hm.two c hc
        have hf := hm.fit
        have h4 : c.fitDuts ∈ s.cfgs.map DutCfg.fitDuts := List.mem_map_of_mem hc
        have hl : c.fitDuts = List.range planes.length := by
          generalize s.cfgs.map DutCfg.fitDuts = ls at hf h4
          cases hf with
          | nothing => exact List.eq_of_mem_replicate h4
          | same =>
            rename_i h
            obtain ⟨l, h | h, -⟩ := h
            · cases h
            · cases h
        rw [hl, List.length_range] at h3
        exact h2 h3

/-- A single selected DUT with explicit settings. -/
def single (a : Args) (c : DutCfg) : Args :=
  { selectDuts := .int c.dut
    selectFitDuts := .list [.list (c.fitDuts.map fun (d : Nat) => .int d)]
    selectHitDuts := .list [.list (c.hitDuts.map fun (d : Nat) => .int d)]
    minTrackHits := match c.minHits with
      | none => .none
      | some k => .int k
    excludeDutHit := .bool c.exclude
    qualityDistances := a.qualityDistances
    isolationDistances := a.isolationDistances }

theorem ints_duts (n : Nat) (l : List Nat) (h : ∀ d ∈ l, d < n) : List.Forall₂ (IsDut n) (l.map fun (d : Nat) => Py.int d) l := by
  induction l with
  | nil => exact .nil
  | cons d l ih => exact .cons ⟨h d List.mem_cons_self, .inl rfl⟩ (ih fun x hx => h x (List.mem_cons_of_mem _ hx))

theorem listMeans_lt {n m : Nat} {default : List Nat} {v : Py} {ls : List (List Nat)} (hdef : ∀ d ∈ default, d < n)
    (h : ListMeans n m default v ls) : ∀ l ∈ ls, ∀ d ∈ l, d < n := by
  have hduts : ∀ {v : Py} {ds : List Nat}, Duts n v ds → ∀ d ∈ ds, d < n := fun ⟨_, _, h⟩ => forall₂_duts_lt h
  cases h with
  | nothing => intro l hl; rw [List.eq_of_mem_replicate hl]; exact hdef
  | same => rename_i h; intro l hl; rw [List.eq_of_mem_replicate hl]; exact hduts h
  | each l _ hl h =>
    clear hl
    induction h with
    | nil => simp
    | cons h _ ih =>
      intro x hx
      rcases List.mem_cons.mp hx with rfl | hx
      · rcases h with ⟨-, rfl⟩ | h
        · exact hdef
        · exact hduts h
      · exact ih x hx
  | eachTuple l _ hl h =>
    clear hl
    induction h with
    | nil => simp
    | cons h _ ih =>
      intro x hx
      rcases List.mem_cons.mp hx with rfl | hx
      · exact hduts h
      · exact ih x hx

/-- The settings of a single DUT. -/
theorem single_ok (n : Nat) (a : Args) (s : Settings) (h : settings n a = .ok s) (c : DutCfg) (hc : c ∈ s.cfgs) :
    settings n (single a c) = .ok ⟨[c], s.quality, s.isolation⟩ := by
  have hm := (C148_meaning n a s (List.ne_nil_of_mem hc)).mp h
  refine (C148_meaning n _ _ (by simp)).mpr ⟨hm.telescope, ?_, ?_, ?_, ?_, ?_, ?_, hm.quality, hm.isolation⟩
  · refine .one _ _ ⟨?_, .inl rfl⟩
    exact selectMeans_lt hm.duts _ (List.mem_map_of_mem hc)
  · refine .each _ _ rfl (.cons (.inr ⟨_, .inl rfl, ints_duts n _ ?_⟩) .nil)
    exact listMeans_lt (fun d hd => List.mem_range.mp hd) hm.fit _ (List.mem_map_of_mem hc)
  · intro x hx
    rw [List.mem_singleton.mp hx]
    exact hm.two c hc
  · refine .each _ _ rfl (.cons (.inr ⟨_, .inl rfl, ints_duts n _ ?_⟩) .nil)
    exact listMeans_lt (by simp) hm.hit _ (List.mem_map_of_mem hc)
  · exact .same c.exclude
  · have : IsMinHits (single a c).minTrackHits c.minHits := by
      unfold single
      dsimp only
      cases c.minHits with
      | none => exact .inl ⟨rfl, rfl⟩
      | some k => exact .inr (.inl ⟨k, rfl, rfl⟩)
    exact .same _ _ this

/-- C148: the tracks of a DUT are those of a call for this DUT alone, with the settings given for it. -/
theorem C148_own_settings [IsStrictOrderedRing K] (est : Finset Nat → Cand K → Nat → Est K R) (planes : List (Plane K))
    (keepData kalman : Bool) (S : Sampling) (maxEvents cs : Nat) (T : List (Cand K)) (a : Args) (s : Settings)
    (hs : settings planes.length a = .ok s) (hfit : ∀ c ∈ s.cfgs, c.fitDuts.Nodup) (tables : List (Nat × List (Row K R)))
    (h : fitTracksCall est planes keepData kalman S maxEvents cs T a = .ok tables) :
    (tables.map Prod.fst).Perm (s.cfgs.map DutCfg.dut) ∧ ∀ c ∈ s.cfgs, ∃ rows, (c.dut, rows) ∈ tables ∧
      fitTracksCall est planes keepData kalman S maxEvents cs T (single a c) = .ok [(c.dut, rows)] := by
  unfold fitTracksCall at h
  rw [hs] at h
  dsimp only at h
  cases ht : fitTracks est (planesOf planes s) keepData kalman S maxEvents cs T s.cfgs with
  | error e => rw [ht] at h; cases h
  | ok t =>
    rw [ht] at h
    injection h with h
    subst h
    refine ⟨BTA.Fit.Props.C25_each_dut_once est _ keepData kalman S maxEvents cs T _ hfit _ ht, fun c hc => ?_⟩
    obtain ⟨rows, h1, h2⟩ := BTA.Fit.Props.C25_own_settings est _ keepData kalman S maxEvents cs T _ hfit _ ht c hc
    refine ⟨rows, h1, ?_⟩
    unfold fitTracksCall
    rw [single_ok _ a s hs c hc]
    dsimp only
    have : planesOf planes ⟨[c], s.quality, s.isolation⟩ = planesOf planes s := rfl
    rw [this, h2]

omit [LinearOrder K] in
/-- C148: every DUT of the telescope is used with the distances given for it. -/
theorem C148_distances (planes : List (Plane K)) (a : Args) (s : Settings) (hne : s.cfgs ≠ []) (hs : settings planes.length a = .ok s) :
    (planesOf planes s).length = planes.length ∧ ∀ (i : Nat) (P P' : Plane K), planes[i]? = some P → (planesOf planes s)[i]? = some P' →
      ∃ q k : Option (ℚ × ℚ), s.quality[i]? = some q ∧ s.isolation[i]? = some k ∧
        P' = { P with quality := q.map fun p => ((p.1 : K), (p.2 : K)), isolation := k.map fun p => ((p.1 : K), (p.2 : K)) } := by
  have hm := (C148_meaning _ a s hne).mp hs
  have hlen : ∀ {v : Py} {ds : List (Option (ℚ × ℚ))}, DistMeans planes.length v ds → ds.length = planes.length := by
    intro v ds h
    cases h with
    | nothing => simp
    | same => simp
    | each _ _ hl h => rw [← h.length_eq, hl]
  have l1 := hlen hm.quality
  have l2 := hlen hm.isolation
  refine ⟨by simp [planesOf, l1, l2], fun i P P' h1 h2 => ?_⟩
  obtain ⟨hi, rfl⟩ := List.getElem?_eq_some_iff.mp h1
  obtain ⟨hi', rfl⟩ := List.getElem?_eq_some_iff.mp h2
  refine ⟨s.quality[i], s.isolation[i], List.getElem?_eq_getElem (by omega), List.getElem?_eq_getElem (by omega), ?_⟩
  simp only [planesOf, List.getElem_zipWith, List.getElem_zip]
  rfl

/-- Three DUTs, of which two are selected with different settings. -/
def exampleArgs : Args :=
  { selectDuts := .list [.int 0, .int 2], selectFitDuts := .list [.list [.int 1, .int 2], .none], selectHitDuts := .list [.none, .list [.int 1]],
    minTrackHits := .list [.int 2, .none], excludeDutHit := .list [.bool false, .bool true],
    qualityDistances := .list [.none, .tuple [.int 1, .float (1 / 2)], .list [.int 3, .int 4]], isolationDistances := .none }

example : settings 3 exampleArgs = .ok ⟨[⟨0, [1, 2], [], false, some 2⟩, ⟨2, [0, 1, 2], [1], true, none⟩], [none, some (1, 1 / 2), some (3, 4)],
    [none, none, none]⟩ := by
  refine (C148_meaning _ _ _ (by simp)).mpr ⟨by decide, ?_, ?_, ?_, ?_, ?_, ?_, ?_, ?_⟩
  · exact .many _ _ ⟨_, .inl rfl, .cons ⟨by decide, .inl rfl⟩ (.cons ⟨by decide, .inl rfl⟩ .nil)⟩ (by decide)
  · exact .each _ _ rfl (.cons (.inr ⟨_, .inl rfl, .cons ⟨by decide, .inl rfl⟩ (.cons ⟨by decide, .inl rfl⟩ .nil)⟩)
      (.cons (.inl ⟨rfl, rfl⟩) .nil))
  · decide
  · exact .each _ _ rfl (.cons (.inl ⟨rfl, rfl⟩) (.cons (.inr ⟨_, .inl rfl, .cons ⟨by decide, .inl rfl⟩ .nil⟩) .nil))
  · exact .each _ _ (.inl rfl) rfl
  · exact .each _ _ _ (.inl rfl) rfl (.cons (.inr (.inl ⟨2, rfl, rfl⟩)) (.cons (.inl ⟨rfl, rfl⟩) .nil))
  · refine .each _ _ rfl (.cons (.inl ⟨rfl, rfl⟩) (.cons (.inr ⟨(1, 1 / 2), ⟨_, _, .inr rfl, .inr (.inl ⟨1, rfl, by norm_num⟩), .inl rfl⟩, rfl⟩)
      (.cons (.inr ⟨(3, 4), ⟨_, _, .inl rfl, .inr (.inl ⟨3, rfl, by norm_num⟩), .inr (.inl ⟨4, rfl, by norm_num⟩)⟩, rfl⟩) .nil)))
  · exact .nothing

/-! ### C149 -/

/-- C149: the list given by the caller contains the same as before, if it has no item None. -/
theorem C149_unchanged_partial (whole : List Py) (v : Py) (h : ∀ l, v = .list l → Py.none ∉ l) : after whole v = v := by
  cases v with
  | list l =>
    unfold after
    dsimp only
    split_ifs
    · rfl
    · congr 1
      calc l.map (fill whole) = l.map id := List.map_congr_left fun x hx => by
            unfold fill
            rw [if_neg]
            · rfl
            · intro hn
              have : x = .none := by cases x <;> first | rfl | cases hn
              exact h l rfl (this ▸ hx)
        _ = l := List.map_id l
  | _ => rfl

/-- C149: every None in the list of the caller is replaced. -/
theorem C149_changed (whole : List Py) (l : List Py) (i : Nat) (h : l[i]? = some .none) :
    ∃ l', after whole (.list l) = .list l' ∧ l'[i]? = some (.list whole) ∧ after whole (.list l) ≠ .list l := by
  have hs : ¬ l.all scalar = true := by
    rw [List.all_eq_true]
    intro hall
    exact absurd (hall _ (List.mem_of_getElem? h)) (by simp [scalar, isNone])
  refine ⟨l.map (fill whole), ?_, ?_, ?_⟩
  · unfold after
    dsimp only
    rw [if_neg hs]
  · rw [List.getElem?_map, h]
    rfl
  · unfold after
    dsimp only
    rw [if_neg hs]
    intro he
    injection he with he
    have : (l.map (fill whole))[i]? = some (.list whole) := by
      rw [List.getElem?_map, h]
      rfl
    rw [he, h] at this
    injection this with this
    cases this

/-- C149: if the list is used again with a larger telescope, an item None of the caller does not mean all DUTs any more, but the DUTs of the
first telescope. -/
theorem C149_second_call (n n' : Nat) (a : Args) (l : List Py) (i : Nat) (hi : l[i]? = some .none)
    (hl : a.selectFitDuts = after (allDuts n) (.list l)) (s : Settings) (hs : settings n' a = .ok s) (c : DutCfg)
    (hc : s.cfgs[i]? = some c) : c.fitDuts = List.range n := by
  have hm := (C148_meaning n' a s (List.ne_nil_of_mem (List.mem_of_getElem? hc))).mp hs
  have hf := hm.fit
  obtain ⟨l', e1, e2, -⟩ := C149_changed (allDuts n) l i hi
  rw [hl, e1] at hf
  have hcf : (s.cfgs.map DutCfg.fitDuts)[i]? = some c.fitDuts := by rw [List.getElem?_map, hc]; rfl
  generalize s.cfgs.map DutCfg.fitDuts = ls at hf hcf
  have key : ∀ ds, Duts n' (.list (allDuts n)) ds → ds = List.range n := by
    rintro ds ⟨k, hk, h⟩
    have : k = allDuts n := by
      rcases hk with hk | hk
      · injection hk with hk
        exact hk.symm
      · cases hk
    subst this
    have : ∀ (r ds : List Nat), List.Forall₂ (IsDut n') (r.map fun (d : Nat) => Py.int d) ds → ds = r := by
      intro r
      induction r with
      | nil => intro ds h; cases h; rfl
      | cons d r ih =>
        intro ds h
        cases h with
        | cons h1 h2 =>
          rw [ih _ h2]
          congr 1
          rcases h1.2 with h1 | ⟨b, h1, -⟩
          · injection h1 with h1
            exact_mod_cast h1.symm
          · cases h1
    exact this _ _ h
  cases hf with
  | same =>
    rename_i h
    exfalso
    obtain ⟨k, hk, h⟩ := h
    have hk : l' = k := by
      rcases hk with hk | hk
      · injection hk
      · cases hk
    subst hk
    have := scalar_duts n' _ _ h
    rw [List.all_eq_true] at this
    exact absurd (this _ (List.mem_of_getElem? e2)) (by simp [scalar, iterable])
  | each _ _ hlen h =>
    have h2 := List.forall₂_iff_get.mp h
    obtain ⟨hi1, g1⟩ := List.getElem?_eq_some_iff.mp e2
    obtain ⟨hi2, g2⟩ := List.getElem?_eq_some_iff.mp hcf
    have := h2.2 i hi1 hi2
    simp only [List.get_eq_getElem, g1, g2] at this
    rcases this with ⟨h, -⟩ | h
    · cases h
    · exact key _ h

/-- A list with None, used for a telescope of three DUTs and then for a telescope of four. -/
example : ∃ s, settings 4 { selectDuts := .int 3, selectFitDuts := after (allDuts 3) (.list [.none]) } = .ok s ∧
    s.cfgs = [⟨3, [0, 1, 2], [], true, none⟩] := by
  refine ⟨⟨[⟨3, [0, 1, 2], [], true, none⟩], List.replicate 4 (some (250, 250)), List.replicate 4 (some (500, 500))⟩,
    (C148_meaning _ _ _ (by simp)).mpr ⟨by decide, ?_, ?_, ?_, ?_, ?_, ?_, ?_, ?_⟩, rfl⟩
  · exact .one _ _ ⟨by decide, .inl rfl⟩
  · exact .each _ _ rfl (.cons (.inr ⟨_, .inl rfl, ints_duts 4 [0, 1, 2] (by decide)⟩) .nil)
  · decide
  · exact .nothing
  · exact .same true
  · exact .same .none none (.inl ⟨rfl, rfl⟩)
  · exact .same _ (250, 250) ⟨_, _, .inr rfl, .inl rfl, .inl rfl⟩
  · exact .same _ (500, 500) ⟨_, _, .inr rfl, .inl rfl, .inl rfl⟩

end BTA.FitArgs.Props
