import Verif.Lemmas.AlignKalman
import Verif.Props.KalmanAlign
/-
Properties of `align_kalman`, beam_telescope_analysis/dut_alignment.py L914-1178, L1321-1666: C150 to C154.
-/
namespace BTA.KDriver.Props
open BTA.Align (Item)
open BTA.Align.Spec (IsGroups IsPerGroup IsEach SplitsExtension)
open BTA.KAlign (Track Record Vec6 Mat6 initialAlignment alignmentLoop parName)
open BTA.Fit (DutCfg sameTracks effectiveFit actualMinHits)
open BTA.KDriver BTA.KDriver.Spec

variable {n : Nat} {T : Type}

/-! ### C150 -/

/-- C150: the arguments are accepted exactly if they give settings for every group. -/
theorem C150_settings (legacy : Bool) (a : Args) (gs : List Group) : settings legacy a = .ok gs ↔ Settings legacy a gs :=
  settings_iff legacy a gs

/-- C150: the settings of the groups are unique. -/
theorem C150_unique (legacy : Bool) (a : Args) (gs gs' : List Group) (h : Settings legacy a gs) (h' : Settings legacy a gs') : gs = gs' := by
  have h1 := (settings_iff _ _ _).mpr h
  rw [(settings_iff _ _ _).mpr h'] at h1
  injection h1 with h1
  exact h1.symm

theorem passes_skip (S : Setup n T) (a : Args) (index : Nat) (g : Group) (chi2 : ℝ) (all : List DutCfg) : ∀ (l : List DutCfg)
    (fitted : List Nat) (w : World n), (∀ c ∈ l, c.dut ∈ fitted) → passes S a index g chi2 all l fitted w = (w, none)
  | [], _, w, _ => by rw [passes]
  | c :: rest, fitted, w, h => by
    rw [passes, if_pos (h c (by simp))]
    exact passes_skip S a index g chi2 all rest fitted w fun c hc => h c (by simp [hc])

theorem dutCfgs_mem {g : Group} {exclude : List Bool} {minHits : List (Option Nat)} {c : DutCfg} (h : c ∈ dutCfgs g exclude minHits) :
    c.dut ∈ g.duts ∧ c.fitDuts = g.fit ∧ c.hitDuts = g.hit ∧ c.exclude ∈ exclude ∧ c.minHits ∈ minHits := by
  unfold dutCfgs at h
  obtain ⟨q, hq, rfl⟩ := List.mem_map.mp h
  have h1 := List.of_mem_zip hq
  have h2 := List.of_mem_zip h1.2
  exact ⟨h1.1, rfl, rfl, h2.1, h2.2⟩

theorem dutCfgs_same {g : Group} {m : Option Nat} {k : Nat} {c c' : DutCfg} (h : c ∈ dutCfgs g (List.replicate k false) (List.replicate k m))
    (h' : c' ∈ dutCfgs g (List.replicate k false) (List.replicate k m)) : sameTracks c c' = true := by
  obtain ⟨-, f1, t1, e1, m1⟩ := dutCfgs_mem h
  obtain ⟨-, f2, t2, e2, m2⟩ := dutCfgs_mem h'
  have e1 := List.eq_of_mem_replicate e1
  have e2 := List.eq_of_mem_replicate e2
  have m1 := List.eq_of_mem_replicate m1
  have m2 := List.eq_of_mem_replicate m2
  unfold sameTracks
  rw [e1, e2, f1, f2, t1, t2, m1, m2]
  simp

theorem dutCfgs_ne {g : Group} (hg : g.duts ≠ []) {exclude : List Bool} {minHits : List (Option Nat)} (h1 : exclude.length = g.duts.length)
    (h2 : minHits.length = g.duts.length) : ∃ c rest, dutCfgs g exclude minHits = c :: rest := by
  cases h : dutCfgs g exclude minHits with
  | nil =>
    have := congrArg List.length h
    simp only [dutCfgs, List.length_map, List.length_zip, h1, h2, List.length_nil, min_self] at this
    exact absurd (List.eq_nil_of_length_eq_zero this) hg
  | cons c rest => exact ⟨c, rest, rfl⟩

/-- With the same tracks for all DUTs there is one alignment for the group. -/
theorem alignGroup_once {S : Setup n T} {a : Args} (hex : a.exclude = .one false) {m : Option Nat} (hm : a.minHits = .one m) {index : Nat}
    {g : Group} (hg : g.duts ≠ []) {w w' : World n} (h : alignGroup S a index g w = (w', none)) :
    ∃ chi2s chi2 c cov, a.chi2 = .many chi2s ∧ chi2s[index]? = some chi2 ∧ c.fitDuts = g.fit ∧ c.hitDuts = g.hit ∧ c.exclude = false ∧
      initial a g = .ok cov ∧
      (alignmentLoop (loopConfig S a g chi2 c w.conf) S.chunkSize w.conf cov (S.candidates index g.maxEvents)).err = none ∧
      w' = { conf := (alignmentLoop (loopConfig S a g chi2 c w.conf) S.chunkSize w.conf cov (S.candidates index g.maxEvents)).saved,
             table := (cleaned index w).table ++
              (alignmentLoop (loopConfig S a g chi2 c w.conf) S.chunkSize w.conf cov (S.candidates index g.maxEvents)).table,
             files := w.files.filter fun i => i ≠ index,
             calls := w.calls ++ [(index, g.maxEvents)] } := by
  obtain ⟨-, chi2, ex, mh, w₁, hc, he, hmh, hp, rfl⟩ := alignGroup_ok h
  rw [hex] at he
  rw [hm] at hmh
  simp only [forEach, Except.ok.injEq] at he hmh
  subst he hmh
  obtain ⟨c, rest, hcr⟩ := dutCfgs_ne hg (exclude := List.replicate g.duts.length false) (minHits := List.replicate g.duts.length m)
    (by simp) (by simp)
  have hmem : c ∈ dutCfgs g (List.replicate g.duts.length false) (List.replicate g.duts.length m) := by rw [hcr]; simp
  have hall : (dutCfgs g (List.replicate g.duts.length false) (List.replicate g.duts.length m)).filter (fun x => sameTracks x c) =
      dutCfgs g (List.replicate g.duts.length false) (List.replicate g.duts.length m) :=
    List.filter_eq_self.mpr fun x hx => dutCfgs_same hx hmem
  have hp' := hp
  nth_rewrite 2 [hcr] at hp'
  obtain ⟨w₂, hpass, hrest⟩ := passes_first hp'
  rw [hall] at hrest
  have hskip := passes_skip S a index g chi2 (dutCfgs g (List.replicate g.duts.length false) (List.replicate g.duts.length m)) rest
    ((dutCfgs g (List.replicate g.duts.length false) (List.replicate g.duts.length m)).map DutCfg.dut) w₂
    (fun x hx => List.mem_map_of_mem (by rw [hcr]; simp [hx]))
  rw [hskip] at hrest
  injection hrest with hrest _
  subst hrest
  rcases pass_ok hpass with ⟨-, h0⟩ | ⟨-, -, cov, hcov, hw, herr⟩
  · exact absurd rfl h0
  obtain ⟨-, f1, t1, e1, -⟩ := dutCfgs_mem hmem
  have e1 := List.eq_of_mem_replicate e1
  unfold chi2Of at hc
  split at hc
  · cases hc
  · rename_i l hl
    split at hc
    · cases hc
    · rename_i x hx
      injection hc with hc
      subst hc
      have hconf : (cleaned index (searched index g w)).conf = w.conf := cleaned_conf _ _
      rw [hconf] at hw herr
      refine ⟨l, x, c, cov, hl, hx, f1, t1, e1, hcov, ?_, ?_⟩
      · cases ho : (alignmentLoop (loopConfig S a g x c w.conf) S.chunkSize w.conf cov (S.candidates index g.maxEvents)).err with
        | none => rfl
        | some e => rw [ho] at herr; cases herr
      · rw [hw]
        unfold cleaned searched
        split <;> simp

theorem alignGroups_inOrder {S : Setup n T} {a : Args} (hex : a.exclude = .one false) {m : Option Nat} (hm : a.minHits = .one m)
    {tel : List Nat} (htel : a.telescopeDuts = some tel) {errors : Vec6} (herr : a.errors = some errors) : ∀ (gs : List Group) (index : Nat)
    (w w' : World n), (∀ g ∈ gs, g.duts ≠ []) → alignGroups S a index gs w = (w', none) →
    ∃ lines, InOrder S a tel errors index gs w.conf w'.conf lines ∧
      w'.table = (if gs = [] then w.table else (cleaned index w).table) ++ lines ∧
      (∀ i, i ∈ w'.files ↔ i ∈ w.files ∧ ¬ (index ≤ i ∧ i < index + gs.length)) ∧
      w'.calls = w.calls ++ (gs.zipIdx index).map fun p => (p.2, p.1.maxEvents)
  | [], index, w, w', _, h => by
    rw [alignGroups] at h
    injection h with h _
    subst h
    refine ⟨[], .done _ _, by simp, fun i => ?_, by simp⟩
    simp only [List.length_nil]
    constructor
    · intro hi; exact ⟨hi, by omega⟩
    · exact fun hi => hi.1
  | g :: gs, index, w, w', hne, h => by
    obtain ⟨w₁, h1, h2⟩ := alignGroups_ok h
    obtain ⟨chi2s, chi2, c, cov, k1, k2, k3, k4, k5, k6, k7, k8⟩ := alignGroup_once hex hm (hne g (by simp)) h1
    obtain ⟨lines, i1, i2, i3, i4⟩ := alignGroups_inOrder hex hm htel herr gs (index + 1) w₁ w' (fun g hg => hne g (by simp [hg])) h2
    obtain ⟨p, es, tel', p1, p2, p3, p4⟩ := initial_ok k6
    have hes : es = errors := by
      unfold errorsOf at p2
      rw [herr] at p2
      injection p2 with p2
      exact p2.symm
    have htel' : tel' = tel := by
      rw [htel] at p3
      injection p3 with p3
      exact p3.symm
    subst hes htel'
    have hfit : S.fit (effectiveFit c) = S.fit g.fit := by
      unfold effectiveFit
      rw [k5, k3]
      rfl
    have hout : alignmentLoop (loopConfig S a g chi2 c w.conf) S.chunkSize w.conf cov (S.candidates index g.maxEvents) =
        alignmentLoop
          { rot0 := fun _ => 1, pos0 := fun _ => 0, fit := S.fit g.fit, chi2Cut := chi2, annealingFactor := a.annealingFactor,
            annealingTracks := a.annealingTracks, maxTracks := g.maxTracks, hitMask := KAlign.hitMask g.hit }
          S.chunkSize w.conf cov (S.candidates index g.maxEvents) := by
      unfold loopConfig alignmentLoop
      rw [hfit, k4]
    refine ⟨_, .next index g gs w.conf w'.conf
      (alignmentLoop (loopConfig S a g chi2 c w.conf) S.chunkSize w.conf cov (S.candidates index g.maxEvents)) lines
      ⟨chi2s, chi2, p, cov, k1, k2, p1, p4, hout, k7⟩ ?_, ?_, ?_, ?_⟩
    · rw [k8] at i1
      exact i1
    · have : (if gs = [] then w₁.table else (cleaned (index + 1) w₁).table) = w₁.table := by
        unfold cleaned
        split
        · rfl
        · rw [if_neg (by omega)]
      rw [i2, this, if_neg (List.cons_ne_nil _ _), k8, List.append_assoc]
    · intro i
      rw [i3, k8]
      simp only [List.mem_filter, decide_eq_true_eq, ne_eq, List.length_cons]
      constructor
      · rintro ⟨⟨a1, a2⟩, a3⟩
        exact ⟨a1, by omega⟩
      · rintro ⟨a1, a2⟩
        exact ⟨⟨a1, by omega⟩, by omega⟩
    · rw [i4, k8]
      simp [List.zipIdx_cons]

theorem startConf_isStart (input : Conf n) (existing : Option (Conf n)) (gs : List Group) :
    IsStart input existing (gs.map Group.duts) (startConf input existing gs) := by
  intro d
  have hiff : (gs.any fun g => decide (d.val ∈ g.duts)) = true ↔ InGroup (gs.map Group.duts) d := by
    simp [InGroup]
  cases existing with
  | none => exact ⟨fun _ => rfl, fun old h => by cases h⟩
  | some old =>
    unfold startConf
    dsimp only
    constructor
    · rintro (h | h)
      · rw [if_pos (hiff.mpr h)]
      · cases h
    · intro old' h hn
      injection h with h
      subst h
      rw [if_neg fun h => hn (hiff.mp h)]

theorem settings_nonempty {legacy : Bool} {a : Args} {gs : List Group} (h : settings legacy a = .ok gs) : ∀ g ∈ gs, g.duts ≠ [] :=
  fun _ hg => ((settings_iff _ _ _).mp h).duts.2 _ (List.mem_map_of_mem hg)

/-- C150: if the call returns, the groups have been aligned one after the other, each with its own settings and its own track candidates,
starting from the alignment of the group before. The lines of all groups are in the alignment file, and only these. No file with track
candidates is left. -/
theorem C150_order (legacy : Bool) (root : List Char → List Char) (S : Setup n T) (a : Args) (D : Disk n) (input : List Char)
    (output : Option (List Char)) (hex : a.exclude = .one false) (m : Option Nat) (hm : a.minHits = .one m) (tel : List Nat)
    (htel : a.telescopeDuts = some tel) (errors : Vec6) (herr : a.errors = some errors) (out : List Char)
    (h : (alignKalman legacy root S a D input output).output = .ok out) :
    ∃ (gs : List Group) (conf start conf' : Conf n), Settings legacy a gs ∧ D.store input = some conf ∧
      IsStart conf (D.store out) (gs.map Group.duts) start ∧
      (alignKalman legacy root S a D input output).disk.store out = some conf' ∧
      InOrder S a tel errors 0 gs start conf' (alignKalman legacy root S a D input output).disk.table ∧
      (∀ i, i ∈ (alignKalman legacy root S a D input output).disk.files ↔ i ∈ D.files ∧ gs.length ≤ i) ∧
      (alignKalman legacy root S a D input output).calls = gs.zipIdx.map fun p => (p.2, p.1.maxEvents) := by
  obtain ⟨conf, gs, out', w, h1, h2, h3, h4, h5⟩ := returns_cases (legacy := legacy) (root := root) (S := S) (a := a) (D := D)
    (input := input) (output := output) ⟨out, h⟩
  have hout : out' = out := by
    rw [h5] at h
    unfold finish at h
    injection h
  subst hout
  obtain ⟨lines, i1, i2, i3, i4⟩ := alignGroups_inOrder hex hm htel herr gs 0 _ w (settings_nonempty h2) h4
  refine ⟨gs, conf, startConf conf (D.store out') gs, w.conf, (settings_iff _ _ _).mp h2, h1, startConf_isStart _ _ _, ?_, ?_, ?_, ?_⟩
  · rw [h5]; unfold finish; dsimp only; rw [if_pos rfl]
  · rw [h5]
    unfold finish
    dsimp only
    rw [i2, if_neg (settings_ne h2)]
    exact i1
  · intro i
    rw [h5]
    unfold finish
    dsimp only
    rw [i3]
    dsimp only
    constructor
    · rintro ⟨a1, a2⟩; exact ⟨a1, by omega⟩
    · rintro ⟨a1, a2⟩; exact ⟨a1, by omega⟩
  · rw [h5]
    unfold finish
    dsimp only
    rw [i4]
    simp

/-! ### C151 -/

/-- C151: without `select_duts` the call raises, and no file has been written. -/
theorem C151_select_duts (legacy : Bool) (root : List Char → List Char) (S : Setup n T) (a : Args) (D : Disk n) (input : List Char)
    (output : Option (List Char)) (h : a.selectDuts = none) :
    Raises (alignKalman legacy root S a D input output) ∧ Untouched D (alignKalman legacy root S a D input output) := by
  rcases alignKalman_cases legacy root S a D input output with ⟨h1, h2⟩ | ⟨conf, gs, out, -, h2, -, -⟩
  · exact ⟨h2, h1⟩
  · exfalso
    have := ((settings_iff _ _ _).mp h2).duts.1
    rw [h] at this
    rcases this with ⟨d, h', -⟩ | ⟨h', -⟩ <;> cases h'

/-- The first group of a call that returns. -/
theorem first_group {legacy : Bool} {root : List Char → List Char} {S : Setup n T} {a : Args} {D : Disk n} {input : List Char}
    {output : Option (List Char)} (h : Returns (alignKalman legacy root S a D input output)) :
    ∃ g gs w w', settings legacy a = .ok (g :: gs) ∧ alignGroup S a 0 g w = (w', none) := by
  obtain ⟨conf, gs, out, w, h1, h2, h3, h4, h5⟩ := returns_cases h
  cases gs with
  | nil => exact absurd rfl (settings_ne h2)
  | cons g gs =>
    obtain ⟨w₁, h6, -⟩ := alignGroups_ok h4
    exact ⟨g, gs, _, w₁, h2, h6⟩

/-- Each group of a call that returns has been aligned. -/
theorem every_group {S : Setup n T} {a : Args} : ∀ (gs : List Group) (index : Nat) (w w' : World n),
    alignGroups S a index gs w = (w', none) → ∀ g ∈ gs, ∃ i w₁ w₂, alignGroup S a i g w₁ = (w₂, none)
  | [], _, _, _, _ => by simp
  | g :: gs, index, w, w', h => by
    obtain ⟨w₁, h1, h2⟩ := alignGroups_ok h
    intro g' hg'
    rcases List.mem_cons.mp hg' with rfl | hg'
    · exact ⟨_, _, _, h1⟩
    · exact every_group gs (index + 1) w₁ w' h2 g' hg'

/-- A group which is aligned has an initial alignment. -/
theorem alignGroup_initial {S : Setup n T} {a : Args} {index : Nat} {g : Group} (hg : g.duts ≠ []) {w w' : World n}
    (h : alignGroup S a index g w = (w', none)) : (∀ d ∈ g.duts ++ g.hit, d < n) ∧ ∃ cov : Fin n → Mat6, initial a g = .ok cov := by
  obtain ⟨hd, chi2, ex, mh, w₁, -, he, hm, hp, -⟩ := alignGroup_ok h
  obtain ⟨c, rest, hcr⟩ := dutCfgs_ne hg ((forEach_iff _ _ _ _).mp he).1 ((forEach_iff _ _ _ _).mp hm).1
  nth_rewrite 2 [hcr] at hp
  obtain ⟨w₂, hpass, -⟩ := passes_first hp
  rcases pass_ok hpass with ⟨-, h0⟩ | ⟨-, -, cov, hcov, -, -⟩
  · exact absurd rfl h0
  · exact ⟨hd, cov, hcov⟩

/-- C151: with a number for `track_chi2`, like the default value, every call raises. -/
theorem C151_track_chi2 (legacy : Bool) (root : List Char → List Char) (S : Setup n T) (a : Args) (D : Disk n) (input : List Char)
    (output : Option (List Char)) (c : ℝ) (h : a.chi2 = .one c) : Raises (alignKalman legacy root S a D input output) := by
  rw [raises_iff]
  intro hr
  obtain ⟨g, gs, w, w', -, h1⟩ := first_group hr
  obtain ⟨-, chi2, ex, mh, w₁, hc, -⟩ := alignGroup_ok h1
  unfold chi2Of at hc
  rw [h] at hc
  cases hc

/-- C151: without `alignment_parameters` every call raises. -/
theorem C151_parameters (legacy : Bool) (root : List Char → List Char) (S : Setup n T) (a : Args) (D : Disk n) (input : List Char)
    (output : Option (List Char)) (h : a.parameters = none) : Raises (alignKalman legacy root S a D input output) := by
  rw [raises_iff]
  intro hr
  obtain ⟨g, gs, w, w', hs, h1⟩ := first_group hr
  have hg := settings_nonempty hs g (by simp)
  obtain ⟨hd, cov, hcov⟩ := alignGroup_initial hg h1
  obtain ⟨p, es, tel, p1, -, -, p4⟩ := initial_ok hcov
  have hp := ((settings_iff _ _ _).mp hs).parameters
  rw [h] at hp
  have hp := hp g (by simp)
  rw [p1] at hp
  injection hp with hp
  obtain ⟨d, hdm⟩ := List.exists_mem_of_ne_nil _ hg
  have hlt := hd d (by simp [hdm])
  obtain ⟨C, hC, -⟩ := KAlign.initialAlignment_ok p4 ⟨d, hlt⟩
  rcases KAlign.initialCov_cases hC with ⟨hn, -⟩ | ⟨names, -, hn, -⟩
  · exact hn hdm
  · rw [hp, List.getElem?_replicate] at hn
    split at hn <;> cases hn

theorem parName_iff (x : String) : x ∈ parameterNames ↔ ∃ k, parName k = x := by
  unfold parameterNames parName
  constructor
  · intro h
    simp only [List.mem_cons, List.not_mem_nil, or_false] at h
    rcases h with rfl | rfl | rfl | rfl | rfl | rfl
    · exact ⟨0, rfl⟩
    · exact ⟨1, rfl⟩
    · exact ⟨2, rfl⟩
    · exact ⟨3, rfl⟩
    · exact ⟨4, rfl⟩
    · exact ⟨5, rfl⟩
  · rintro ⟨k, rfl⟩
    fin_cases k <;> simp

/-- C151: without `alignment_parameters_errors` a call returns only if no alignment parameter is selected for any DUT. -/
theorem C151_parameters_errors (legacy : Bool) (root : List Char → List Char) (S : Setup n T) (a : Args) (D : Disk n) (input : List Char)
    (output : Option (List Char)) (h : a.errors = none) (hr : Returns (alignKalman legacy root S a D input output)) (gs : List Group)
    (hs : Settings legacy a gs) (g : Group) (hg : g ∈ gs) (p : List (Option (List String))) (hp : g.parameters = some p) (d : Nat)
    (hd : d ∈ g.duts) (names : List String) (hnames : p[d]? = some (some names)) : ∀ x ∈ parameterNames, x ∉ names := by
  obtain ⟨conf, gs', out, w, h1, h2, h3, h4, h5⟩ := returns_cases hr
  have := C150_unique legacy a gs gs' hs ((settings_iff _ _ _).mp h2)
  subst this
  obtain ⟨i, w₁, w₂, h6⟩ := every_group gs 0 _ _ h4 g hg
  obtain ⟨hd', cov, hcov⟩ := alignGroup_initial (settings_nonempty h2 g hg) h6
  obtain ⟨p', es, tel, p1, p2, -, -⟩ := initial_ok hcov
  rw [hp] at p1
  injection p1 with p1
  subst p1
  unfold errorsOf at p2
  rw [h] at p2
  dsimp only at p2
  split at p2
  · cases p2
  · rename_i hneed
    intro x hx hxn
    obtain ⟨k, rfl⟩ := (parName_iff x).mp hx
    apply hneed
    unfold needsErrors
    rw [List.any_eq_true]
    refine ⟨d, hd, ?_⟩
    rw [hnames]
    simp only [Bool.and_eq_true, decide_eq_true_eq, List.any_eq_true]
    exact ⟨hd' d (by simp [hd]), k, List.mem_finRange k, hxn⟩

/-- C151: without `select_telescope_duts` every call raises. -/
theorem C151_telescope_duts (legacy : Bool) (root : List Char → List Char) (S : Setup n T) (a : Args) (D : Disk n) (input : List Char)
    (output : Option (List Char)) (h : a.telescopeDuts = none) : Raises (alignKalman legacy root S a D input output) := by
  rw [raises_iff]
  intro hr
  obtain ⟨g, gs, w, w', hs, h1⟩ := first_group hr
  obtain ⟨hd, cov, hcov⟩ := alignGroup_initial (settings_nonempty hs g (by simp)) h1
  obtain ⟨p, es, tel, -, -, p3, -⟩ := initial_ok hcov
  rw [h] at p3
  cases p3

theorem initialCovs_exists {select : List Nat} {parameters : List (Option (List String))} {errors : Vec6}
    (h : ∀ d ∈ select, ∃ names, parameters[d]? = some (some names)) : ∀ (l : List (Fin n)) (cov : Fin n → Mat6),
    ∃ cov', KAlign.initialCovs select parameters errors l cov = .ok cov'
  | [], cov => ⟨cov, rfl⟩
  | d :: ds, cov => by
    rw [KAlign.initialCovs]
    unfold KAlign.initialCov
    by_cases hd : d.val ∈ select
    · obtain ⟨names, hn⟩ := h d hd
      rw [if_pos hd, hn]
      exact initialCovs_exists h ds _
    · rw [if_neg hd]
      exact initialCovs_exists h ds _

theorem initialAlignment_exists {select tel : List Nat} {parameters : List (Option (List String))} {errors : Vec6}
    (h : ∀ d ∈ select, ∃ names, parameters[d]? = some (some names)) (hne : tel ≠ []) (htel : ∀ t ∈ tel, t < n) :
    ∃ cov : Fin n → Mat6, initialAlignment select tel parameters errors = .ok cov := by
  obtain ⟨c, hc⟩ := initialCovs_exists (errors := errors) h (List.finRange n) fun _ => 0
  unfold initialAlignment
  rw [hc, List.head?_eq_some_head hne, List.getLast?_eq_some_getLast hne]
  dsimp only
  unfold KAlign.fixPlane
  rw [dif_pos (htel _ (List.head_mem hne))]
  dsimp only
  rw [dif_pos (htel _ (List.getLast_mem hne))]
  exact ⟨_, rfl⟩

/-- The arguments for one group, all given. -/
def explicit (duts : List Nat) (parameters : List (List String)) (errors : Vec6) (tel hit fit : List Nat) (chi2 factor : ℝ)
    (tracks maxTracks : Nat) (maxEvents : Option Nat) : Args where
  selectDuts := some (duts.map .one)
  parameters := some [some (parameters.map some)]
  errors := some errors
  telescopeDuts := some tel
  hitDuts := some (hit.map .one)
  fitDuts := some (fit.map .one)
  exclude := .one false
  minHits := .one none
  maxEvents := .one maxEvents
  chi2 := .many [chi2]
  annealingFactor := factor
  annealingTracks := tracks
  maxTracks := .one maxTracks

/-- C151: a call for one group with all arguments given, the limit of chi2 as a list and parameters for the DUT with the highest number and
all before, aligns the DUTs with the tracks that have hits in all hit DUTs; it returns exactly if the loop over the tracks does not raise.

What is missing for the full statement: `C151_select_duts`, `C151_track_chi2`, `C151_parameters`, `C151_parameters_errors`,
`C151_telescope_duts`. -/
theorem C151_explicit_partial (legacy : Bool) (root : List Char → List Char) (S : Setup n T) (D : Disk n) (input : List Char)
    (output : Option (List Char)) (conf : Conf n) (hin : D.store input = some conf) (out : List Char)
    (hout : outputName root input output = .ok out) (duts : List Nat) (parameters : List (List String)) (errors : Vec6)
    (tel hit fit : List Nat) (chi2 factor : ℝ) (tracks maxTracks : Nat) (maxEvents : Option Nat)
    (hduts : duts ≠ []) (hpar : ∀ d ∈ duts, d < parameters.length) (hn : ∀ d ∈ duts ++ hit ++ tel, d < n) (htel : tel ≠ [])
    (hhit : 2 ≤ hit.length) (hfit : 2 ≤ fit.length) (hsub : ∀ d ∈ fit, d ∈ hit) :
    ∃ (start : Conf n) (cov : Fin n → Mat6), IsStart conf (D.store out) [duts] start ∧
      initialAlignment duts tel (parameters.map some) errors = .ok cov ∧
      ∀ o, o = alignmentLoop
        { rot0 := fun _ => 1, pos0 := fun _ => 0, fit := S.fit fit, chi2Cut := chi2, annealingFactor := factor, annealingTracks := tracks,
          maxTracks := maxTracks, hitMask := KAlign.hitMask hit } S.chunkSize start cov (S.candidates 0 maxEvents) →
      ∀ r, r = alignKalman legacy root S (explicit duts parameters errors tel hit fit chi2 factor tracks maxTracks maxEvents) D input output →
      r.disk.store out = some o.saved ∧ r.disk.table = o.table ∧ (o.err = none → r.output = .ok out) ∧
        ∀ e, o.err = some e → r.output = .error (.loop e) := by
  set a := explicit duts parameters errors tel hit fit chi2 factor tracks maxTracks maxEvents with ha
  set g : Group := ⟨duts, some (parameters.map some), hit, fit, maxEvents, maxTracks⟩ with hg
  have hset : settings legacy a = .ok [g] := by
    rw [settings_iff]
    refine ⟨⟨.inl ⟨duts, rfl, rfl⟩, by simpa [g] using hduts⟩, rfl, ⟨?_, .inl ⟨hit, rfl, rfl⟩⟩, ⟨?_, .inl ⟨fit, rfl, rfl⟩⟩, ?_, ?_, ?_⟩
    · intro h0
      have := congrArg List.length h0
      simp at this
      subst this
      simp at hhit
    · intro h0
      have := congrArg List.length h0
      simp at this
      subst this
      simp at hfit
    · intro g' hg'
      rw [List.mem_singleton] at hg'
      subst hg'
      exact ⟨hhit, hfit, hsub⟩
    · intro v hv
      simpa [g] using hv
    · intro v hv
      simpa [g] using hv
  obtain ⟨cov, hcov⟩ := initialAlignment_exists (n := n) (select := duts) (tel := tel) (parameters := parameters.map some) (errors := errors)
    (fun d hd => ⟨parameters[d]'(hpar d hd), by simp [List.getElem?_eq_getElem (hpar d hd)]⟩) htel
    (fun t ht => hn t (by simp [ht]))
  refine ⟨startConf conf (D.store out) [g], cov, startConf_isStart conf (D.store out) [g], hcov, ?_⟩
  rintro o ho r rfl
  have hinit : initial a g = .ok cov := by
    unfold initial errorsOf
    simp only [g, a, explicit, hcov]
  have hany : ∀ l : List Nat, (∀ d ∈ l, d < n) → (l.any fun d => decide (n ≤ d)) = false := by
    intro l hl
    rw [List.any_eq_false]
    intro d hd
    have := hl d hd
    simp only [decide_eq_true_eq]
    omega
  obtain ⟨c, rest, hcr⟩ := dutCfgs_ne (g := g) hduts (exclude := List.replicate duts.length false)
    (minHits := List.replicate duts.length none) (by simp [g]) (by simp [g])
  have hmem : c ∈ dutCfgs g (List.replicate duts.length false) (List.replicate duts.length none) := by rw [hcr]; simp
  obtain ⟨-, f1, t1, e1, m1⟩ := dutCfgs_mem hmem
  have e1 := List.eq_of_mem_replicate e1
  have m1 := List.eq_of_mem_replicate m1
  have heff : effectiveFit c = fit := by
    unfold effectiveFit
    rw [e1, f1]
    rfl
  have hmin : actualMinHits c = fit.length := by
    unfold actualMinHits
    rw [m1, heff]
    rfl
  have hloop : ∀ cf : Conf n, alignmentLoop (loopConfig S a g chi2 c cf) S.chunkSize cf cov (S.candidates 0 maxEvents) = alignmentLoop
        { rot0 := fun _ => 1, pos0 := fun _ => 0, fit := S.fit fit, chi2Cut := chi2, annealingFactor := factor, annealingTracks := tracks,
          maxTracks := maxTracks, hitMask := KAlign.hitMask hit } S.chunkSize cf cov (S.candidates 0 maxEvents) := by
    intro cf
    unfold loopConfig alignmentLoop
    rw [heff, t1]
    rfl
  have hpass : ∀ w : World n, w.conf = startConf conf (D.store out) [g] → pass S a 0 g chi2 c w =
      ({ w with conf := o.saved, table := w.table ++ o.table }, o.err.map .loop) := by
    intro w hw
    unfold pass
    rw [hmin, heff, if_neg (by omega), if_neg (by omega), hinit]
    dsimp only
    have h1 := hloop w.conf
    rw [hw] at h1 ⊢
    have h2 : alignmentLoop (loopConfig S a g chi2 c (startConf conf (D.store out) [g])) S.chunkSize (startConf conf (D.store out) [g]) cov
        (S.candidates 0 g.maxEvents) = o := h1.trans ho.symm
    rw [h2]
  have hall : (dutCfgs g (List.replicate duts.length false) (List.replicate duts.length none)).filter (fun x => sameTracks x c) =
      dutCfgs g (List.replicate duts.length false) (List.replicate duts.length none) :=
    List.filter_eq_self.mpr fun x hx => dutCfgs_same hx hmem
  have hskip : ∀ w : World n, passes S a 0 g chi2 (dutCfgs g (List.replicate duts.length false) (List.replicate duts.length none)) rest
      ((dutCfgs g (List.replicate duts.length false) (List.replicate duts.length none)).map DutCfg.dut) w = (w, none) := fun w =>
    passes_skip S a 0 g chi2 _ rest _ w (fun x hx => List.mem_map_of_mem (by rw [hcr]; simp [hx]))
  have hpasses : ∀ w : World n, w.conf = startConf conf (D.store out) [g] →
      passes S a 0 g chi2 (dutCfgs g (List.replicate duts.length false) (List.replicate duts.length none))
        (dutCfgs g (List.replicate duts.length false) (List.replicate duts.length none)) [] w =
      ({ w with conf := o.saved, table := w.table ++ o.table }, o.err.map .loop) := by
    intro w hw
    have : passes S a 0 g chi2 (dutCfgs g (List.replicate duts.length false) (List.replicate duts.length none)) (c :: rest) [] w =
        ({ w with conf := o.saved, table := w.table ++ o.table }, o.err.map .loop) := by
      rw [passes, if_neg (by simp), hpass w hw]
      cases o.err with
      | none => simp only [Option.map_none, hall, List.nil_append, hskip]
      | some e => rfl
    rw [← hcr] at this
    exact this
  have hgroup : ∃ files, alignGroup S a 0 g ⟨startConf conf (D.store out) [g], D.table, D.files, []⟩ =
      (⟨o.saved, o.table, files, [(0, maxEvents)]⟩, o.err.map .loop) := by
    unfold alignGroup
    dsimp only
    rw [hany (g.duts ++ g.hit) (fun d hd => hn d (by
      rw [List.append_assoc]
      rcases List.mem_append.mp hd with h | h
      · exact List.mem_append_left _ h
      · exact List.mem_append_right _ (List.mem_append_left _ h)))]
    rw [if_neg (by simp)]
    have hchi : chi2Of a 0 = .ok chi2 := rfl
    rw [hchi]
    dsimp only
    unfold alignDuts
    have he1 : forEach .exclude g.duts.length a.exclude = .ok (List.replicate duts.length false) := rfl
    have he2 : forEach .minHits g.duts.length a.minHits = .ok (List.replicate duts.length none) := rfl
    rw [he1, he2]
    dsimp only
    rw [if_pos rfl, hpasses _ rfl]
    cases o.err with
    | none => exact ⟨_, rfl⟩
    | some e => exact ⟨_, rfl⟩
  obtain ⟨files, hgroup⟩ := hgroup
  have hrun : alignGroups S a 0 [g] ⟨startConf conf (D.store out) [g], D.table, D.files, []⟩ =
      (⟨o.saved, o.table, files, [(0, maxEvents)]⟩, o.err.map .loop) := by
    rw [alignGroups, hgroup]
    cases o.err with
    | none => rfl
    | some e => rfl
  have hres : alignKalman legacy root S a D input output = finish D out (⟨o.saved, o.table, files, [(0, maxEvents)]⟩, o.err.map .loop) := by
    unfold alignKalman
    rw [hin]
    dsimp only
    rw [hset]
    dsimp only
    rw [hout]
    dsimp only
    have : ([g].any fun g => g.duts.any fun d => decide (n ≤ d)) = false := by
      simp only [List.any_cons, List.any_nil, Bool.or_false]
      exact hany duts fun d hd => hn d (by simp [hd])
    rw [this, Bool.and_false, if_neg (by simp), hrun]
  rw [hres]
  unfold finish
  refine ⟨by simp, rfl, fun h => ?_, fun e h => ?_⟩
  · rw [h]; rfl
  · rw [h]; rfl

/-! ### C152 -/

/-- A list of different numbers, all smaller than the length, contains all numbers from 0. -/
theorem perm_range {l : List Nat} (h : l.Nodup) (hlt : ∀ d ∈ l, d < l.length) : l.Perm (List.range l.length) := by
  have hsub : l ⊆ List.range l.length := fun d hd => List.mem_range.mpr (hlt d hd)
  have hsp : l.Subperm (List.range l.length) := h.subperm hsub
  exact hsp.perm_of_length_le (by simp)

/-- C152: if the alignment parameters are given as documented, one item for each DUT of each group, a call returns only if every group
consists of the DUTs 0 to k for some k. -/
theorem C152_only_first (legacy : Bool) (root : List Char → List Char) (S : Setup n T) (a : Args) (D : Disk n) (input : List Char)
    (output : Option (List Char)) (groups : List (List Nat)) (hg : IsGroups legacy a.selectDuts groups)
    (parameters : List (Option (List (Option (List String))))) (hp : a.parameters = some parameters) (hone : OnePerDut parameters groups)
    (hr : Returns (alignKalman legacy root S a D input output)) : ∀ g ∈ groups, g.Nodup → g.Perm (List.range g.length) := by
  obtain ⟨conf, gs, out, w, h1, h2, h3, h4, h5⟩ := returns_cases hr
  have hs := (settings_iff _ _ _).mp h2
  have hgs : gs.map Group.duts = groups := by
    have e1 := (Align.groupsOf_iff _ _ _).mpr hs.duts
    rw [(Align.groupsOf_iff _ _ _).mpr hg] at e1
    injection e1 with e1
    exact e1.symm
  have hps : gs.map Group.parameters = parameters := by
    have := hs.parameters
    rw [hp] at this
    exact this
  subst hgs hps
  intro l hl hnd
  obtain ⟨g, hgm, rfl⟩ := List.mem_map.mp hl
  obtain ⟨p, e1, e2⟩ := (forall₂_maps Group.parameters Group.duts _ gs).mp hone g hgm
  obtain ⟨i, w₁, w₂, h6⟩ := every_group gs 0 _ _ h4 g hgm
  obtain ⟨hd, cov, hcov⟩ := alignGroup_initial (settings_nonempty h2 g hgm) h6
  obtain ⟨p', es, tel, p1, -, -, p4⟩ := initial_ok hcov
  rw [e1] at p1
  injection p1 with p1
  subst p1
  refine perm_range hnd fun d hdm => ?_
  by_contra hlt
  exact BTA.Props.C99_subset g.duts tel p es e2 ⟨d, hd d (by simp [hdm])⟩ hdm (Nat.le_of_not_lt hlt) cov p4

/-- C152: so a call with several groups that have no DUT in common always raises. -/
theorem C152_several_groups (legacy : Bool) (root : List Char → List Char) (S : Setup n T) (a : Args) (D : Disk n) (input : List Char)
    (output : Option (List Char)) (groups : List (List Nat)) (hg : IsGroups legacy a.selectDuts groups)
    (parameters : List (Option (List (Option (List String))))) (hp : a.parameters = some parameters) (hone : OnePerDut parameters groups)
    (h2 : 2 ≤ groups.length) (hnd : ∀ g ∈ groups, g.Nodup) (hdis : groups.Pairwise List.Disjoint) :
    Raises (alignKalman legacy root S a D input output) := by
  rw [raises_iff]
  intro hr
  have hperm := C152_only_first legacy root S a D input output groups hg parameters hp hone hr
  have hzero : ∀ g ∈ groups, 0 ∈ g := by
    intro g hgm
    rw [(hperm g hgm (hnd g hgm)).mem_iff, List.mem_range]
    exact List.length_pos_iff.mpr (hg.2 g hgm)
  match groups, h2, hdis, hzero with
  | x :: y :: r, _, hdis, hzero =>
    exact (List.pairwise_cons.mp hdis).1 y (by simp) (hzero x (by simp)) (hzero y (by simp))

/-- C152: a single group of all DUTs in order, with one item for each DUT, is aligned: all DUTs but the first and the last telescope plane
start with the errors of the parameters in their item, and the result is that of the loop over the tracks.

What is missing for the full statement: `C152_only_first`, `C152_several_groups`. -/
theorem C152_all_duts_partial (legacy : Bool) (root : List Char → List Char) (S : Setup n T) (D : Disk n) (input : List Char)
    (output : Option (List Char)) (conf : Conf n) (hin : D.store input = some conf) (out : List Char)
    (hout : outputName root input output = .ok out) (parameters : List (List String)) (errors : Vec6) (tel : List Nat) (chi2 factor : ℝ)
    (tracks maxTracks : Nat) (maxEvents : Option Nat) (hn : 2 ≤ n) (hpar : parameters.length = n) (htel : tel ≠ []) (ht : ∀ t ∈ tel, t < n) :
    ∃ (cov : Fin n → Mat6),
      (∀ d : Fin n, tel.head? ≠ some d.val ∧ tel.getLast? ≠ some d.val → ∀ k : Fin 6,
        cov d k k = if parName k ∈ parameters[d.val]'(by rw [hpar]; exact d.isLt) then errors k ^ 2 else 0) ∧
      ∀ o, o = alignmentLoop
        { rot0 := fun _ => 1, pos0 := fun _ => 0, fit := S.fit (List.range n), chi2Cut := chi2, annealingFactor := factor,
          annealingTracks := tracks, maxTracks := maxTracks, hitMask := KAlign.hitMask (List.range n) } S.chunkSize conf cov
          (S.candidates 0 maxEvents) →
      ∀ r, r = alignKalman legacy root S
        (explicit (List.range n) parameters errors tel (List.range n) (List.range n) chi2 factor tracks maxTracks maxEvents) D input output →
      r.disk.store out = some o.saved ∧ r.disk.table = o.table ∧ (o.err = none → r.output = .ok out) ∧
        ∀ e, o.err = some e → r.output = .error (.loop e) := by
  obtain ⟨start, cov, h1, h2, h3⟩ := C151_explicit_partial legacy root S D input output conf hin out hout (List.range n) parameters errors tel
    (List.range n) (List.range n) chi2 factor tracks maxTracks maxEvents (by simp; omega)
    (fun d hd => by rw [hpar]; exact List.mem_range.mp hd)
    (fun d hd => by
      rcases List.mem_append.mp hd with h | h
      · rcases List.mem_append.mp h with h | h <;> exact List.mem_range.mp h
      · exact ht d h)
    htel (by simpa using hn) (by simpa using hn) (fun d hd => hd)
  have hstart : start = conf := by
    funext d
    exact (h1 d).1 (.inl ⟨List.range n, by simp, by simp⟩)
  subst hstart
  exact ⟨cov, fun d hd k => BTA.Props.C99_all_partial parameters tel errors cov hpar h2 d hd k, h3⟩

/-! ### C153 -/

/-- The minimum number of hits is not accepted for the fit DUTs. -/
def HitsError (e : Option Err) : Prop := e = some .tooFewHits ∨ e = some .tooManyHits

/-- The settings of a DUT without minimum number of hits. -/
def anyHits (c : DutCfg) : DutCfg := { c with minHits := none }

theorem pass_anyHits (S : Setup n T) (a : Args) (m : Nat) (index : Nat) (g : Group) (chi2 : ℝ) (c : DutCfg) (hc : c.minHits = some m)
    (w : World n) (h : ¬ HitsError (pass S { a with minHits := .one (some m) } index g chi2 c w).2) :
    pass S { a with minHits := .one none } index g chi2 (anyHits c) w = pass S { a with minHits := .one (some m) } index g chi2 c w := by
  have heff : effectiveFit (anyHits c) = effectiveFit c := rfl
  have h0 : actualMinHits (anyHits c) = (effectiveFit c).length := rfl
  have h1 : actualMinHits c = m := by unfold actualMinHits; rw [hc]; rfl
  unfold pass at h ⊢
  rw [h1] at h
  rw [h1, h0, heff]
  by_cases k1 : m < 2
  · rw [if_pos k1] at h
    exact absurd (.inl rfl) h
  · rw [if_neg k1] at h
    by_cases k2 : m > (effectiveFit c).length
    · rw [if_pos k2] at h
      exact absurd (.inr rfl) h
    · rw [if_neg k1, if_neg k2, if_neg (by omega), if_neg (by omega)]
      rfl

theorem sameTracks_anyHits (x c : DutCfg) (h : x.minHits = c.minHits) : sameTracks (anyHits x) (anyHits c) = sameTracks x c := by
  unfold sameTracks anyHits
  simp [h]

theorem passes_anyHits (S : Setup n T) (a : Args) (m : Nat) (index : Nat) (g : Group) (chi2 : ℝ) (all : List DutCfg)
    (hall : ∀ c ∈ all, c.minHits = some m) : ∀ (l : List DutCfg) (_ : ∀ c ∈ l, c.minHits = some m) (fitted : List Nat) (w : World n),
    ¬ HitsError (passes S { a with minHits := .one (some m) } index g chi2 all l fitted w).2 →
    passes S { a with minHits := .one none } index g chi2 (all.map anyHits) (l.map anyHits) fitted w =
      passes S { a with minHits := .one (some m) } index g chi2 all l fitted w
  | [], _, fitted, w, _ => by simp only [List.map_nil, passes]
  | c :: rest, hl, fitted, w, h => by
    rw [List.map_cons, passes, passes]
    rw [passes] at h
    have hd : (anyHits c).dut = c.dut := rfl
    rw [hd]
    by_cases hf : c.dut ∈ fitted
    · rw [if_pos hf] at h ⊢
      rw [if_pos hf]
      exact passes_anyHits S a m index g chi2 all hall rest (fun c hc => hl c (by simp [hc])) fitted w h
    · rw [if_neg hf] at h ⊢
      rw [if_neg hf]
      have hfilter : ((all.map anyHits).filter fun x => sameTracks x (anyHits c)).map DutCfg.dut =
          (all.filter fun x => sameTracks x c).map DutCfg.dut := by
        rw [List.filter_map, List.map_map]
        have : all.filter ((fun x => sameTracks x (anyHits c)) ∘ anyHits) = all.filter fun x => sameTracks x c :=
          List.filter_congr fun x hx => sameTracks_anyHits x c ((hall x hx).trans (hl c (by simp)).symm)
        rw [this]
        rfl
      have hp := pass_anyHits S a m index g chi2 c (hl c (by simp)) w
      rcases hq : pass S { a with minHits := .one (some m) } index g chi2 c w with ⟨w', e⟩
      rw [hq] at hp h
      cases e with
      | some e =>
        dsimp only at h
        rw [hp h]
      | none =>
        dsimp only at h
        rw [hp (by rintro (h | h) <;> cases h)]
        dsimp only
        rw [hfilter]
        exact passes_anyHits S a m index g chi2 all hall rest (fun c hc => hl c (by simp [hc])) _ w' h

theorem zip_anyHits (g : Group) (m : Option Nat) : ∀ (duts : List Nat) (exclude : List Bool) (k : Nat),
    ((duts.zip (exclude.zip (List.replicate k m))).map fun q : Nat × Bool × Option Nat => (⟨q.1, g.fit, g.hit, q.2.1, q.2.2⟩ : DutCfg)).map
      anyHits = (duts.zip (exclude.zip (List.replicate k none))).map fun q => ⟨q.1, g.fit, g.hit, q.2.1, q.2.2⟩
  | [], _, _ => by simp
  | _ :: _, [], _ => by simp
  | _ :: _, _ :: _, 0 => by simp
  | d :: ds, e :: es, k + 1 => by
    have := zip_anyHits g m ds es k
    simp only [List.replicate_succ, List.zip_cons_cons, List.map_cons, this]
    rfl

theorem alignGroup_anyHits (S : Setup n T) (a : Args) (m : Nat) (index : Nat) (g : Group) (w : World n)
    (h : ¬ HitsError (alignGroup S { a with minHits := .one (some m) } index g w).2) :
    alignGroup S { a with minHits := .one none } index g w = alignGroup S { a with minHits := .one (some m) } index g w := by
  unfold alignGroup at h ⊢
  dsimp only at h ⊢
  by_cases hany : ((g.duts ++ g.hit).any fun d => decide (n ≤ d)) = true
  · rw [if_pos hany, if_pos hany]
  · rw [if_neg hany] at h ⊢
    rw [if_neg hany]
    have hchi : chi2Of { a with minHits := .one none } index = chi2Of { a with minHits := .one (some m) } index := rfl
    rw [hchi]
    cases hc : chi2Of { a with minHits := .one (some m) } index with
    | error e => rfl
    | ok chi2 =>
      rw [hc] at h
      dsimp only at h ⊢
      unfold alignDuts at h ⊢
      dsimp only at h ⊢
      cases hex : forEach .exclude g.duts.length a.exclude with
      | error e => rfl
      | ok ex =>
        rw [hex] at h
        simp only [forEach] at h ⊢
        have hz : dutCfgs g ex (List.replicate g.duts.length none) = (dutCfgs g ex (List.replicate g.duts.length (some m))).map anyHits :=
          (zip_anyHits g (some m) g.duts ex g.duts.length).symm
        have hall : ∀ c ∈ dutCfgs g ex (List.replicate g.duts.length (some m)), c.minHits = some m := fun c hc =>
          List.eq_of_mem_replicate (dutCfgs_mem hc).2.2.2.2
        have key := passes_anyHits S a m index g chi2 _ hall _ hall [] (cleaned index (searched index g w))
        change ¬ HitsError (match passes S { a with minHits := .one (some m) } index g chi2
            (dutCfgs g ex (List.replicate g.duts.length (some m))) (dutCfgs g ex (List.replicate g.duts.length (some m))) []
            (cleaned index (searched index g w)) with
          | (w', some e) => (w', some e)
          | (w', none) => ({ w' with files := w'.files.filter fun i => i ≠ index }, none) : World n × Option Err).2 at h
        change (match passes S { a with minHits := .one none } index g chi2
            (dutCfgs g ex (List.replicate g.duts.length none)) (dutCfgs g ex (List.replicate g.duts.length none)) []
            (cleaned index (searched index g w)) with
          | (w', some e) => (w', some e)
          | (w', none) => ({ w' with files := w'.files.filter fun i => i ≠ index }, none) : World n × Option Err) =
          (match passes S { a with minHits := .one (some m) } index g chi2
            (dutCfgs g ex (List.replicate g.duts.length (some m))) (dutCfgs g ex (List.replicate g.duts.length (some m))) []
            (cleaned index (searched index g w)) with
          | (w', some e) => (w', some e)
          | (w', none) => ({ w' with files := w'.files.filter fun i => i ≠ index }, none) : World n × Option Err)
        rw [hz, key]
        intro he
        apply h
        revert he
        rcases passes S { a with minHits := .one (some m) } index g chi2
            (dutCfgs g ex (List.replicate g.duts.length (some m))) (dutCfgs g ex (List.replicate g.duts.length (some m))) []
            (cleaned index (searched index g w)) with ⟨w', e⟩
        cases e with
        | none => exact id
        | some e => exact id

theorem alignGroups_anyHits (S : Setup n T) (a : Args) (m : Nat) : ∀ (gs : List Group) (index : Nat) (w : World n),
    ¬ HitsError (alignGroups S { a with minHits := .one (some m) } index gs w).2 →
    alignGroups S { a with minHits := .one none } index gs w = alignGroups S { a with minHits := .one (some m) } index gs w
  | [], _, _, _ => rfl
  | g :: gs, index, w, h => by
    rw [alignGroups] at h ⊢
    rw [alignGroups]
    have key := alignGroup_anyHits S a m index g w
    rcases hq : alignGroup S { a with minHits := .one (some m) } index g w with ⟨w', e⟩
    rw [hq] at key h
    cases e with
    | some e =>
      rw [key h]
    | none =>
      rw [key (by rintro (h | h) <;> cases h)]
      exact alignGroups_anyHits S a m gs (index + 1) w' h

/-- C153: `min_track_hits` has no influence: a value that is accepted for the number of fit DUTs gives exactly the same result as no value,
for all telescopes, track candidates and other arguments. -/
theorem C153_no_influence (legacy : Bool) (root : List Char → List Char) (S : Setup n T) (a : Args) (D : Disk n) (input : List Char)
    (output : Option (List Char)) (m : Nat)
    (h : ∀ e, (alignKalman legacy root S { a with minHits := .one (some m) } D input output).output = .error e →
      e ≠ .tooFewHits ∧ e ≠ .tooManyHits) :
    alignKalman legacy root S { a with minHits := .one (some m) } D input output =
      alignKalman legacy root S { a with minHits := .one none } D input output := by
  have hset : settings legacy { a with minHits := .one none } = settings legacy { a with minHits := .one (some m) } := rfl
  unfold alignKalman at h ⊢
  rw [hset]
  cases hin : D.store input with
  | none => rfl
  | some conf =>
    rw [hin] at h
    dsimp only at h ⊢
    cases hs : settings legacy { a with minHits := .one (some m) } with
    | error e => rfl
    | ok gs =>
      rw [hs] at h
      dsimp only at h ⊢
      cases ho : outputName root input output with
      | error e => rfl
      | ok out =>
        rw [ho] at h
        dsimp only at h ⊢
        by_cases hc : ((D.store out).isSome && gs.any fun g => g.duts.any fun d => decide (n ≤ d)) = true
        · rw [if_pos hc, if_pos hc]
        · rw [if_neg hc] at h ⊢
          rw [if_neg hc, alignGroups_anyHits S a m gs 0]
          rintro (he | he)
          · have := h .tooFewHits (by unfold finish; rw [he])
            exact this.1 rfl
          · have := h .tooManyHits (by unfold finish; rw [he])
            exact this.2 rfl

theorem initial_noHits {a : Args} {g : Group} {e : Err} (h : initial (n := n) a g = .error e) : ¬ HitsError (some e) := by
  unfold initial at h
  rintro (he | he)
  all_goals
    injection he with he
    subst he
    split at h
    · cases h
    · split at h
      · rename_i e' he'
        injection h with h
        subst h
        unfold errorsOf at he'
        split at he'
        · cases he'
        · split at he' <;> cases he'
      · split at h
        · cases h
        · split at h <;> cases h

theorem passes_noHits (S : Setup n T) (a : Args) (index : Nat) (g : Group) (chi2 : ℝ) (all : List DutCfg) : ∀ (l : List DutCfg)
    (_ : ∀ c ∈ l, 2 ≤ actualMinHits c ∧ actualMinHits c ≤ (effectiveFit c).length) (fitted : List Nat) (w : World n),
    ¬ HitsError (passes S a index g chi2 all l fitted w).2
  | [], _, _, w => by rw [passes]; rintro (h | h) <;> cases h
  | c :: rest, hl, fitted, w => by
    rw [passes]
    split
    · exact passes_noHits S a index g chi2 all rest (fun c hc => hl c (by simp [hc])) fitted w
    · split
      · rename_i w' e he
        unfold pass at he
        obtain ⟨h1, h2⟩ := hl c (by simp)
        rw [if_neg (by omega), if_neg (by omega)] at he
        split at he
        · rename_i e' hi
          injection he with _ he
          injection he with he
          subst he
          exact initial_noHits hi
        · injection he with _ he
          rintro (h | h)
          all_goals
            dsimp only at h
            rw [← he] at h
            revert h
            generalize (alignmentLoop _ _ _ _ _).err = o
            intro h
            cases o <;> cases h
      · exact passes_noHits S a index g chi2 all rest (fun c hc => hl c (by simp [hc])) _ _

theorem alignGroups_noHits (S : Setup n T) (a : Args) (hex : a.exclude = .one false) (m : Nat) (hm : a.minHits = .one (some m)) (h2 : 2 ≤ m) :
    ∀ (gs : List Group) (index : Nat) (w : World n), (∀ g ∈ gs, m ≤ g.fit.length) → ¬ HitsError (alignGroups S a index gs w).2
  | [], _, w, _ => by rw [alignGroups]; rintro (h | h) <;> cases h
  | g :: gs, index, w, hg => by
    have key : ¬ HitsError (alignGroup S a index g w).2 := by
      unfold alignGroup
      dsimp only
      split
      · rintro (h | h) <;> cases h
      · split
        · rename_i e he
          unfold chi2Of at he
          split at he
          · injection he with he
            subst he
            rintro (h | h) <;> cases h
          · split at he
            · injection he with he
              subst he
              rintro (h | h) <;> cases h
            · cases he
        · rename_i chi2 _
          unfold alignDuts
          rw [hex, hm]
          simp only [forEach]
          have hp := passes_noHits S a index g chi2 (dutCfgs g (List.replicate g.duts.length false) (List.replicate g.duts.length (some m)))
            (dutCfgs g (List.replicate g.duts.length false) (List.replicate g.duts.length (some m)))
            (fun c hc => by
              obtain ⟨-, f1, -, e1, m1⟩ := dutCfgs_mem hc
              have e1 := List.eq_of_mem_replicate e1
              have m1 := List.eq_of_mem_replicate m1
              have k1 : actualMinHits c = m := by unfold actualMinHits; rw [m1]; rfl
              have k2 : effectiveFit c = g.fit := by unfold effectiveFit; rw [e1, f1]; rfl
              rw [k1, k2]
              exact ⟨h2, hg g (by simp)⟩) [] (cleaned index (searched index g w))
          change ¬ HitsError (match passes S a index g chi2
              (dutCfgs g (List.replicate g.duts.length false) (List.replicate g.duts.length (some m)))
              (dutCfgs g (List.replicate g.duts.length false) (List.replicate g.duts.length (some m))) []
              (cleaned index (searched index g w)) with
            | (w', some e) => (w', some e)
            | (w', none) => ({ w' with files := w'.files.filter fun i => i ≠ index }, none) : World n × Option Err).2
          split
          · rename_i w' e he
            rw [he] at hp
            exact hp
          · rintro (h | h) <;> cases h
    rw [alignGroups]
    split
    · rename_i w' e he
      rw [he] at key
      exact key
    · exact alignGroups_noHits S a hex m hm h2 gs (index + 1) _ fun g hg' => hg g (by simp [hg'])

/-- C153: in particular every number from two to the number of fit DUTs gives the same result as no value. -/
theorem C153_same_result (legacy : Bool) (root : List Char → List Char) (S : Setup n T) (a : Args) (D : Disk n) (input : List Char)
    (output : Option (List Char)) (hex : a.exclude = .one false) (m : Nat) (h2 : 2 ≤ m)
    (hm : ∀ gs, Settings legacy a gs → ∀ g ∈ gs, m ≤ g.fit.length) :
    alignKalman legacy root S { a with minHits := .one (some m) } D input output =
      alignKalman legacy root S { a with minHits := .one none } D input output := by
  apply C153_no_influence
  intro e he
  unfold alignKalman at he
  split at he
  · injection he with he
    subst he
    exact ⟨by simp, by simp⟩
  · split at he
    · rename_i e' hs
      injection he with he
      subst he
      unfold settings at hs
      have key : ∀ e : Err, (∃ x : Align.Err, e = .args x) ∨ e = .maxEvents ∨ e = .maxTracks → e ≠ .tooFewHits ∧ e ≠ .tooManyHits := by
        rintro e (⟨x, rfl⟩ | rfl | rfl) <;> exact ⟨by simp, by simp⟩
      apply key
      have hlift : ∀ {α : Type} {x : Except Align.Err α} {e : Err}, lift x = .error e → ∃ y : Align.Err, e = .args y := by
        intro α x e hx
        cases x with
        | ok _ => cases hx
        | error y => injection hx with hx; exact ⟨y, hx.symm⟩
      have hfor : ∀ {α : Type} {e e' : Err} {k : Nat} {x : Item α}, forEach e k x = .error e' → e' = e := by
        intro α e e' k x hx
        cases x with
        | one _ => cases hx
        | many l =>
          simp only [forEach] at hx
          split at hx
          · cases hx
          · injection hx with hx; exact hx.symm
      rcases Align.bind_error hs with hs | ⟨_, -, hs⟩
      · exact .inl (hlift hs)
      rcases Align.bind_error hs with hs | ⟨_, -, hs⟩
      · unfold parametersOf at hs
        split at hs
        · cases hs
        · split at hs
          · cases hs
          · injection hs with hs
            exact .inl ⟨_, hs.symm⟩
      rcases Align.bind_error hs with hs | ⟨_, -, hs⟩
      · exact .inl (hlift hs)
      rcases Align.bind_error hs with hs | ⟨_, -, hs⟩
      · exact .inl (hlift hs)
      rcases Align.bind_error hs with hs | ⟨_, -, hs⟩
      · exact .inr (.inl (hfor hs))
      rcases Align.bind_error hs with hs | ⟨_, -, hs⟩
      · exact .inr (.inr (hfor hs))
      cases hs
    · rename_i gs hs
      split at he
      · rename_i e' ho
        injection he with he
        subst he
        unfold outputName at ho
        split at ho
        · split at ho
          · injection ho with ho
            subst ho
            exact ⟨by simp, by simp⟩
          · cases ho
        · split at ho <;> cases ho
      · split at he
        · injection he with he
          subst he
          exact ⟨by simp, by simp⟩
        · unfold finish at he
          dsimp only at he
          split at he
          · cases he
          · rename_i e'' he''
            injection he with he
            subst he
            have key := fun w => alignGroups_noHits S { a with minHits := .one (some m) } hex m rfl h2 gs 0 w (hm gs
              ((settings_iff _ _ _).mp hs))
            exact ⟨fun h => key _ (.inl (he''.trans (by rw [h]))), fun h => key _ (.inr (he''.trans (by rw [h])))⟩

theorem dataLoop_mem {α : Type} (ev : α → Int) (l : List α) (e : Option Int) (cs stop : Nat) : ∀ (k cur : Nat), stop - cur ≤ k →
    ∀ c ∈ (dataLoop ev l e cs stop cur).items, ∀ x ∈ c.1, x ∈ l := by
  intro k
  induction k with
  | zero =>
    intro cur hk c hc
    rw [dataLoop, dif_neg (by omega)] at hc
    cases hc
  | succ k ih =>
    intro cur hk c hc x hx
    rw [dataLoop] at hc
    split at hc
    · rename_i hcur
      dsimp only at hc
      split at hc
      · split at hc
        · split at hc <;> cases hc
        · rename_i hn
          rcases List.mem_cons.mp hc with rfl | hc
          · have := List.mem_of_mem_take hx
            unfold readRows at this
            exact List.mem_of_mem_take (List.mem_of_mem_drop this)
          · exact ih _ (by omega) c hc x hx
      · cases hc
    · cases hc

/-- Without a track that has all hits, nothing is aligned. -/
theorem alignmentLoop_nothing (cfg : KAlign.Config n T) (cs : Nat) (al : Conf n) (cov : Fin n → Mat6) (tracks : List (Track n T))
    (h : ∀ t ∈ tracks, KAlign.valid cfg.hitMask t = false) :
    (alignmentLoop cfg cs al cov tracks).saved = al ∧ (alignmentLoop cfg cs al cov tracks).table = [] := by
  obtain ⟨l, sf, -, h1, h2, h3, -⟩ := KAlign.alignmentLoop_trace cfg cs al cov tracks
  have hnil : ((dataAligned Track.event tracks { chunkSize := cs }).items.map Prod.fst).flatten.filter (KAlign.valid cfg.hitMask) = [] := by
    rw [List.filter_eq_nil_iff]
    intro t ht
    obtain ⟨c, hc, htc⟩ := List.mem_flatten.mp ht
    obtain ⟨q, hq, rfl⟩ := List.mem_map.mp hc
    rw [dataAligned_default] at hq
    rw [h t (dataLoop_mem Track.event tracks none cs tracks.length _ 0 le_rfl q hq t htc)]
    simp
  rw [hnil, List.prefix_nil, List.map_eq_nil_iff] at h3
  subst h3
  rw [h1] at h2 ⊢
  exact ⟨h2, rfl⟩

theorem valid_false {t : Track n T} {fit hit : List Nat} (hsub : ∀ d ∈ fit, d ∈ hit) (h : Misses t fit) :
    KAlign.valid (KAlign.hitMask hit) t = false := by
  rw [Bool.eq_false_iff]
  intro hv
  obtain ⟨d, hd, hb⟩ := h
  have := (KAlign.valid_iff hit t).mp hv d (hsub d hd)
  rw [hb] at this
  cases this

theorem passes_nothing (S : Setup n T) (a : Args) (index : Nat) (g : Group) (chi2 : ℝ) (all : List DutCfg)
    (h : ∀ t ∈ S.candidates index g.maxEvents, KAlign.valid (KAlign.hitMask g.hit) t = false) : ∀ (l : List DutCfg)
    (_ : ∀ c ∈ l, c.hitDuts = g.hit) (fitted : List Nat) (w : World n),
    (passes S a index g chi2 all l fitted w).1.conf = w.conf ∧ (passes S a index g chi2 all l fitted w).1.table = w.table
  | [], _, _, w => by rw [passes]; exact ⟨rfl, rfl⟩
  | c :: rest, hl, fitted, w => by
    rw [passes]
    split
    · exact passes_nothing S a index g chi2 all h rest (fun c hc => hl c (by simp [hc])) fitted w
    · have key : ∀ w' e, pass S a index g chi2 c w = (w', e) → w'.conf = w.conf ∧ w'.table = w.table := by
        intro w' e he
        rcases pass_ok he with ⟨rfl, -⟩ | ⟨-, -, cov, hc, rfl, -⟩
        · exact ⟨rfl, rfl⟩
        · have := alignmentLoop_nothing (loopConfig S a g chi2 c w.conf) S.chunkSize w.conf cov (S.candidates index g.maxEvents) (by
            have hm : (loopConfig S a g chi2 c w.conf).hitMask = KAlign.hitMask g.hit := by
              show KAlign.hitMask c.hitDuts = _
              rw [hl c (by simp)]
            rw [hm]
            exact h)
          refine ⟨this.1, ?_⟩
          dsimp only
          rw [this.2, List.append_nil]
      split
      · rename_i w' e he
        exact key _ _ he
      · rename_i w' he
        have := passes_nothing S a index g chi2 all h rest (fun c hc => hl c (by simp [hc]))
          (fitted ++ (all.filter fun x => sameTracks x c).map DutCfg.dut) w'
        rw [(key _ _ he).1, (key _ _ he).2] at this
        exact this

theorem alignGroups_nothing (S : Setup n T) (a : Args) : ∀ (gs : List Group) (index : Nat) (w w' : World n),
    (∀ i g, gs[i]? = some g → ∀ t ∈ S.candidates (index + i) g.maxEvents, KAlign.valid (KAlign.hitMask g.hit) t = false) →
    alignGroups S a index gs w = (w', none) → w'.conf = w.conf ∧ w'.table = if gs = [] then w.table else (cleaned index w).table
  | [], _, w, w', _, h => by
    rw [alignGroups] at h
    injection h with h _
    subst h
    simp
  | g :: gs, index, w, w', hm, h => by
    obtain ⟨w₁, h1, h2⟩ := alignGroups_ok h
    obtain ⟨-, chi2, ex, mh, w₂, -, -, -, hp, hw⟩ := alignGroup_ok h1
    have key := passes_nothing S a index g chi2 (dutCfgs g ex mh) (hm 0 g rfl) (dutCfgs g ex mh) (fun c hc => (dutCfgs_mem hc).2.2.1) []
      (cleaned index (searched index g w))
    rw [hp] at key
    have hc : w₁.conf = w.conf := by
      rw [hw]
      exact key.1.trans (cleaned_conf _ _)
    have ht : w₁.table = (cleaned index w).table := by
      rw [hw]
      refine key.2.trans ?_
      unfold cleaned searched
      split <;> rfl
    have ih := alignGroups_nothing S a gs (index + 1) w₁ w' (fun i g' hi t ht' => hm (i + 1) g' (by simpa using hi) t (by
      have : index + (i + 1) = index + 1 + i := by omega
      rw [this]
      exact ht')) h2
    refine ⟨ih.1.trans hc, ?_⟩
    rw [ih.2, if_neg (List.cons_ne_nil _ _), ← ht]
    unfold cleaned
    split
    · rfl
    · rw [if_neg (by omega)]

/-- C153: a track that misses one of the fit DUTs is never used, however many hits it has: if every track candidate misses at least one of
the fit DUTs of its group, nothing is aligned for any value of `min_track_hits`. -/
theorem C153_all_hits (legacy : Bool) (root : List Char → List Char) (S : Setup n T) (a : Args) (D : Disk n) (input : List Char)
    (output : Option (List Char)) (out : List Char) (h : (alignKalman legacy root S a D input output).output = .ok out) (gs : List Group)
    (hs : Settings legacy a gs)
    (hm : ∀ i g, gs[i]? = some g → ∀ t ∈ S.candidates i g.maxEvents, Misses t g.fit) :
    (∃ conf start, D.store input = some conf ∧ IsStart conf (D.store out) (gs.map Group.duts) start ∧
      (alignKalman legacy root S a D input output).disk.store out = some start) ∧
    (alignKalman legacy root S a D input output).disk.table = [] := by
  obtain ⟨conf, gs', out', w, h1, h2, h3, h4, h5⟩ := returns_cases (legacy := legacy) (root := root) (S := S) (a := a) (D := D)
    (input := input) (output := output) ⟨out, h⟩
  have hout : out' = out := by
    rw [h5] at h
    unfold finish at h
    injection h
  subst hout
  have := C150_unique legacy a gs gs' hs ((settings_iff _ _ _).mp h2)
  subst this
  obtain ⟨k1, k2⟩ := alignGroups_nothing S a gs 0 _ w (fun i g hi t ht => valid_false (hs.enough g (List.mem_of_getElem? hi)).2.2
    (hm i g hi t (by simpa using ht))) h4
  rw [h5]
  unfold finish
  refine ⟨⟨conf, w.conf, h1, ?_, by simp⟩, ?_⟩
  · rw [k1]
    exact startConf_isStart _ _ _
  · dsimp only
    rw [k2, if_neg (settings_ne h2)]
    rfl

/-! ### C154 -/

theorem replace_length (old new : List Char) (hl : old.length ≤ new.length) (ho : old ≠ []) : ∀ (s : List Char) (skip : Nat),
    s.length ≤ (Align.replaceFrom old new skip s).length + skip
  | [], skip => by simp
  | c :: r, 0 => by
    simp only [Align.replaceFrom]
    split
    · have h1 := replace_length old new hl ho r (old.length - 1)
      have h3 : 0 < old.length := List.length_pos_iff.mpr ho
      simp only [List.length_cons, List.length_append] at *
      omega
    · have := replace_length old new hl ho r 0
      simp only [List.length_cons] at *
      omega
  | c :: r, skip + 1 => by
    simp only [Align.replaceFrom]
    have := replace_length old new hl ho r skip
    simp only [List.length_cons] at *
    omega

theorem replace_longer (old new : List Char) (hl : old.length < new.length) (ho : old ≠ []) : ∀ (s : List Char),
    Align.contains old s = true → s.length < (Align.replaceFrom old new 0 s).length
  | [], h => by
    simp only [Align.contains, List.isEmpty_iff] at h
    exact absurd h ho
  | c :: r, h => by
    simp only [Align.replaceFrom]
    split
    · have h1 := replace_length old new hl.le ho r (old.length - 1)
      have h3 : 0 < old.length := List.length_pos_iff.mpr ho
      simp only [List.length_cons, List.length_append] at *
      omega
    · next hp =>
      simp only [Align.contains, Bool.or_eq_true, hp, false_or, Bool.false_eq_true] at h
      have := replace_longer old new hl ho r h
      simp only [List.length_cons]
      omega

theorem outputName_ne (root : List Char → List Char) (hr : SplitsExtension root) (input : List Char) (output : Option (List Char))
    (out : List Char) (h : outputName root input output = .ok out) : out ≠ input := by
  unfold outputName at h
  cases output with
  | some o =>
    dsimp only at h
    split at h
    · cases h
    · next hne =>
      injection h with h
      rw [← h]
      exact hne
  | none =>
    dsimp only at h
    split at h
    · next hc =>
      injection h with h
      intro he
      have := replace_longer "prealigned".toList "aligned_kalman".toList (by decide) (by decide) input hc
      rw [h, he] at this
      exact lt_irrefl _ this
    · injection h with h
      intro he
      rw [← h] at he
      rcases hr input with h0 | ⟨e, h0⟩
      · have := congrArg List.length he
        rw [h0] at this
        simp at this
      · nth_rewrite 2 [h0] at he
        have := List.append_cancel_left he
        simp at this

/-- C154: the input configuration file is never changed, and no other configuration file than the output file; the input file as output
file is refused. This holds whether the call returns or raises. -/
theorem C154_files (legacy : Bool) (root : List Char → List Char) (hr : SplitsExtension root) (S : Setup n T) (a : Args) (D : Disk n)
    (input : List Char) (output : Option (List Char)) :
    (alignKalman legacy root S a D input output).disk.store input = D.store input ∧
    (∀ o, output = some o → ∀ f, f ≠ o → (alignKalman legacy root S a D input output).disk.store f = D.store f) ∧
    (∀ f, (alignKalman legacy root S a D input output).output = .ok f → f ≠ input ∧ (∀ o, output = some o → f = o) ∧
      ∀ f', f' ≠ f → (alignKalman legacy root S a D input output).disk.store f' = D.store f') ∧
    (output = some input → Raises (alignKalman legacy root S a D input output) ∧
      Untouched D (alignKalman legacy root S a D input output)) := by
  rcases alignKalman_cases legacy root S a D input output with ⟨⟨h1, h1'⟩, e, h2⟩ | ⟨conf, gs, out, h1, h2, h3, h4⟩
  · refine ⟨by rw [h1], fun o _ f _ => by rw [h1], fun f hf => ?_, fun _ => ⟨⟨e, h2⟩, h1, h1'⟩⟩
    rw [h2] at hf
    cases hf
  · have hne := outputName_ne root hr input output out h3
    have hstore : ∀ f, f ≠ out → (alignKalman legacy root S a D input output).disk.store f = D.store f := by
      intro f hf
      rw [h4]
      unfold finish
      dsimp only
      rw [if_neg hf]
    have hname : ∀ o, output = some o → out = o := by
      intro o ho
      rw [ho] at h3
      unfold outputName at h3
      dsimp only at h3
      split at h3
      · cases h3
      · injection h3 with h3
        exact h3.symm
    refine ⟨hstore input hne.symm, fun o ho f hf => hstore f (by rw [hname o ho]; exact hf), fun f hf => ?_, fun ho => ?_⟩
    · have : f = out := by
        rw [h4] at hf
        unfold finish at hf
        dsimp only at hf
        split at hf
        · injection hf with hf; exact hf.symm
        · cases hf
      subst this
      exact ⟨hne, hname, hstore⟩
    · exact absurd (hname _ ho) hne

theorem ext_par {a b : Dut.Alignment} (h : ∀ k, BTA.Spec.par a k = BTA.Spec.par b k) : a = b := by
  have h0 := h 0
  have h1 := h 1
  have h2 := h 2
  have h3 := h 3
  have h4 := h 4
  have h5 := h 5
  cases a
  cases b
  simp only [BTA.Spec.par, Matrix.cons_val] at h0 h1 h2 h3 h4 h5
  simp_all

/-- C154: the alignment of a DUT that is in no group is not changed, whether the call returns or raises: in the output configuration it
is that of the output file before if this exists, otherwise that of the input configuration. -/
theorem C154_other_duts (legacy : Bool) (root : List Char → List Char) (S : Setup n T) (a : Args) (D : Disk n) (input : List Char)
    (output : Option (List Char)) (conf : Conf n) (hin : D.store input = some conf) (groups : List (List Nat))
    (hg : IsGroups legacy a.selectDuts groups) (d : Fin n) (hd : ¬ InGroup groups d) (out : List Char)
    (hout : outputName root input output = .ok out) (before : Conf n) (hb : before = (D.store out).getD conf)
    (hu : BTA.Spec.UsualAngles (before d)) (conf' : Conf n)
    (hc : (alignKalman legacy root S a D input output).disk.store out = some conf') : conf' d = before d := by
  subst hb
  rcases alignKalman_cases legacy root S a D input output with ⟨⟨h1, -⟩, -⟩ | ⟨conf₀, gs, out₀, h1, h2, h3, h4⟩
  · rw [h1] at hc
    rw [hc]
    rfl
  · rw [hin] at h1
    injection h1 with h1
    subst h1
    rw [hout] at h3
    injection h3 with h3
    subst h3
    rw [h4] at hc
    unfold finish at hc
    dsimp only at hc
    rw [if_pos rfl] at hc
    injection hc with hc
    have hgs : gs.map Group.duts = groups := by
      have e1 := (Align.groupsOf_iff _ _ _).mpr ((settings_iff _ _ _).mp h2).duts
      rw [(Align.groupsOf_iff _ _ _).mpr hg] at e1
      injection e1 with e1
      exact e1.symm
    have hstart : startConf conf (D.store out) gs d = ((D.store out).getD conf) d := by
      cases ho : D.store out with
      | none => rfl
      | some old =>
        have := (startConf_isStart conf (some old) gs d).2 old rfl (by rw [hgs]; exact hd)
        exact this
    have key := alignGroups_conf (S := S) (a := a) (fun c : Conf n => c d = ((D.store out).getD conf) d) gs
      (fun g hgm cfg cs cf cov tracks hi hcf => by
        obtain ⟨p, es, tel, p1, p2, p3, p4⟩ := initial_ok hi
        have hdg : d.val ∉ g.duts := fun h => hd ⟨g.duts, by rw [← hgs]; exact List.mem_map_of_mem hgm, h⟩
        have hex : ∀ k, BTA.Spec.Excluded g.duts tel p d k := fun k => .inl hdg
        rw [← hcf]
        refine ext_par fun k => ?_
        by_cases hk : k.val < 3
        · exact (BTA.Props.C93_excluded_partial cfg cs cf cov tracks g.duts tel p es p4 d k (hex k)).2 hk
        · exact (BTA.Props.C93_no_rotation cfg cs cf cov tracks g.duts tel p es p4 d (by rw [hcf]; exact hu) (fun k _ => hex k) k
            (by omega)).2) 0 ⟨startConf conf (D.store out) gs, D.table, D.files, []⟩ hstart
    rw [← hc]
    exact key

/-- C154: the positions of the first and the last telescope plane in the output configuration are those before the alignment, in all three
directions, also if they are selected. -/
theorem C154_telescope_planes (legacy : Bool) (root : List Char → List Char) (S : Setup n T) (a : Args) (D : Disk n) (input : List Char)
    (output : Option (List Char)) (conf : Conf n) (hin : D.store input = some conf) (groups : List (List Nat))
    (hg : IsGroups legacy a.selectDuts groups) (tel : List Nat) (htel : a.telescopeDuts = some tel) (d : Fin n)
    (hd : tel.head? = some d.val ∨ tel.getLast? = some d.val) (hsel : InGroup groups d) (out : List Char)
    (h : (alignKalman legacy root S a D input output).output = .ok out) (conf' : Conf n)
    (hc : (alignKalman legacy root S a D input output).disk.store out = some conf') :
    (conf' d).x = (conf d).x ∧ (conf' d).y = (conf d).y ∧ (conf' d).z = (conf d).z := by
  obtain ⟨conf₀, gs, out', w, h1, h2, h3, h4, h5⟩ := returns_cases (legacy := legacy) (root := root) (S := S) (a := a) (D := D)
    (input := input) (output := output) ⟨out, h⟩
  have hout : out' = out := by
    rw [h5] at h
    unfold finish at h
    injection h
  subst hout
  rw [hin] at h1
  injection h1 with h1
  subst h1
  rw [h5] at hc
  unfold finish at hc
  dsimp only at hc
  rw [if_pos rfl] at hc
  injection hc with hc
  have hgs : gs.map Group.duts = groups := by
    have e1 := (Align.groupsOf_iff _ _ _).mpr ((settings_iff _ _ _).mp h2).duts
    rw [(Align.groupsOf_iff _ _ _).mpr hg] at e1
    injection e1 with e1
    exact e1.symm
  have hstart : startConf conf (D.store out') gs d = conf d := (startConf_isStart conf (D.store out') gs d).1 (.inl (by rw [hgs]; exact hsel))
  have key := alignGroups_conf (S := S) (a := a) (fun c : Conf n => ∀ k : Fin 6, k.val < 3 → BTA.Spec.par (c d) k = BTA.Spec.par (conf d) k) gs
    (fun g hgm cfg cs cf cov tracks hi hcf k hk => by
      obtain ⟨p, es, tel', p1, p2, p3, p4⟩ := initial_ok hi
      rw [htel] at p3
      injection p3 with p3
      subst p3
      have hex : BTA.Spec.Excluded g.duts tel p d k := .inr (.inr ⟨hd, by rintro rfl; simp at hk⟩)
      exact ((BTA.Props.C93_excluded_partial cfg cs cf cov tracks g.duts tel p es p4 d k hex).2 hk).trans (hcf k hk))
    0 ⟨startConf conf (D.store out') gs, D.table, D.files, []⟩ (fun k _ => by
      show BTA.Spec.par (startConf conf (D.store out') gs d) k = _
      rw [hstart])
  rw [h4] at key
  rw [← hc]
  exact ⟨key 0 (by decide), key 1 (by decide), key 2 (by decide)⟩

/-! ### Example: the plane in the middle of three is aligned in x with two tracks -/

/-- Every track candidate of the example has hits in all planes. -/
noncomputable def exSetup (tracks : List (Track 3 Unit)) : Setup 3 Unit :=
  { candidates := fun _ _ => tracks, fit := fun _ _ _ _ => some BTA.Props.exFit, chunkSize := 100 }

noncomputable def exArgs : Args :=
  explicit [1] [[], ["translation_x"], []] (fun _ => 1) [0, 2] [0, 1, 2] [0, 1, 2] 10 10000 5000 10000 none

noncomputable def exDisk : Disk 3 := { store := fun f => if f = "t.yaml".toList then some (BTA.Props.exAl 0) else none, table := [], files := [5] }

theorem exName : outputName id "t.yaml".toList none = .ok "t.yaml_aligned_kalman.yaml".toList := by
  unfold outputName
  dsimp only
  rw [if_neg (by decide)]
  rfl

theorem exReturns : ∃ conf : Conf 3,
    (alignKalman false id (exSetup [BTA.Props.exTrack (-(1 / 50)), BTA.Props.exTrack 3]) exArgs exDisk "t.yaml".toList none).output =
      .ok "t.yaml_aligned_kalman.yaml".toList ∧
    (alignKalman false id (exSetup [BTA.Props.exTrack (-(1 / 50)), BTA.Props.exTrack 3]) exArgs exDisk "t.yaml".toList none).disk.store
      "t.yaml_aligned_kalman.yaml".toList = some conf ∧ (conf 1).x = 1 / 100 := by
  obtain ⟨start, cov, h1, h2, h3⟩ := C151_explicit_partial false id (exSetup [BTA.Props.exTrack (-(1 / 50)), BTA.Props.exTrack 3]) exDisk
    "t.yaml".toList none (BTA.Props.exAl 0) (by simp [exDisk]) _ exName [1] [[], ["translation_x"], []] (fun _ => 1) [0, 2] [0, 1, 2] [0, 1, 2] 10
    10000 5000 10000 none (by simp) (by simp) (by decide) (by simp) (by simp) (by simp) (by simp)
  obtain ⟨cov', k1, -, k3⟩ := BTA.Props.exShift
  have hcov : cov' = cov := by
    have e : (.ok cov' : Except KAlign.Err (Fin 3 → Mat6)) = .ok cov := k1.symm.trans h2
    injection e
  subst hcov
  have hstart : start = BTA.Props.exAl 0 := by
    funext d
    exact (h1 d).1 (.inr (by decide))
  subst hstart
  obtain ⟨g1, g2, g3, -⟩ := h3 _ rfl _ rfl
  exact ⟨_, g3 (k3 3).1, g1, (k3 3).2.2⟩

/-- The group of the example. -/
def exGroup : Group := ⟨[1], some [some [], some ["translation_x"], some []], [0, 1, 2], [0, 1, 2], none, 10000⟩

theorem exSettings : Settings false exArgs [exGroup] := by
  refine ⟨⟨.inl ⟨[1], rfl, rfl⟩, by simp [exGroup]⟩, rfl, ⟨by simp, .inl ⟨[0, 1, 2], rfl, rfl⟩⟩, ⟨by simp, .inl ⟨[0, 1, 2], rfl, rfl⟩⟩, ?_, ?_, ?_⟩
  · simp [exGroup]
  · intro v hv
    simpa [exGroup] using hv
  · intro v hv
    simpa [exGroup] using hv

/-- C150: the call of the example returns, and the group has been aligned with both tracks. -/
example : ∃ (gs : List Group) (start conf' : Conf 3) (lines : List (Record 3)), Settings false exArgs gs ∧
    InOrder (exSetup [BTA.Props.exTrack (-(1 / 50)), BTA.Props.exTrack 3]) exArgs [0, 2] (fun _ => 1) 0 gs start conf' lines ∧
    (conf' 1).x = 1 / 100 := by
  obtain ⟨conf, h1, h2, h3⟩ := exReturns
  obtain ⟨gs, c, start, conf', k1, -, -, k4, k5, -⟩ := C150_order false id _ exArgs exDisk "t.yaml".toList none rfl none rfl [0, 2] rfl
    (fun _ => 1) rfl _ h1
  rw [h2] at k4
  injection k4 with k4
  subst k4
  exact ⟨gs, start, conf, _, k1, k5, h3⟩

/-- C151: the example without `track_chi2` raises, for all track candidates. -/
example (tracks : List (Track 3 Unit)) :
    Raises (alignKalman false id (exSetup tracks) { exArgs with chi2 := .one 10 } exDisk "t.yaml".toList none) :=
  C151_track_chi2 _ _ _ _ _ _ _ 10 rfl

example (tracks : List (Track 3 Unit)) :
    Raises (alignKalman false id (exSetup tracks) { exArgs with parameters := none } exDisk "t.yaml".toList none) :=
  C151_parameters _ _ _ _ _ _ _ rfl

example (tracks : List (Track 3 Unit)) :
    Raises (alignKalman false id (exSetup tracks) { exArgs with errors := none } exDisk "t.yaml".toList none) := by
  rw [raises_iff]
  intro h
  have hs := exSettings
  exact C151_parameters_errors _ _ _ { exArgs with errors := none } _ _ _ rfl h [exGroup]
    ⟨hs.duts, hs.parameters, hs.hit, hs.fit, hs.enough, hs.maxEvents, hs.maxTracks⟩ exGroup (by simp) _ rfl 1 (by simp [exGroup])
    ["translation_x"] rfl "translation_x" (by simp [parameterNames]) (by simp)

example (tracks : List (Track 3 Unit)) :
    Raises (alignKalman false id (exSetup tracks) { exArgs with telescopeDuts := none } exDisk "t.yaml".toList none) :=
  C151_telescope_duts _ _ _ _ _ _ _ rfl

/-- C152: two planes, then two others, with the parameters in the documented form. -/
example (S : Setup 4 Unit) (D : Disk 4) : Raises (alignKalman false id S
    { exArgs with
      selectDuts := some [.many [0, 3], .many [1, 2]]
      parameters := some [some [some ["translation_x"], some ["translation_x"]], some [some ["translation_y"], some ["rotation_gamma"]]]
      chi2 := .many [10, 10] } D "t.yaml".toList none) := by
  refine C152_several_groups _ _ _ _ _ _ _ [[0, 3], [1, 2]] ⟨.inr ⟨rfl, by simp, .inr ⟨2, by simp⟩⟩, by simp⟩ _ rfl ?_ (by simp) (by simp)
    (by simp [List.Disjoint])
  exact .cons ⟨_, rfl, rfl⟩ (.cons ⟨_, rfl, rfl⟩ .nil)

/-- C153: in the example, two required hits are the same as no value. -/
example (tracks : List (Track 3 Unit)) : alignKalman false id (exSetup tracks) { exArgs with minHits := .one (some 2) } exDisk "t.yaml".toList none =
    alignKalman false id (exSetup tracks) { exArgs with minHits := .one none } exDisk "t.yaml".toList none :=
  C153_same_result _ _ _ _ _ _ _ rfl 2 le_rfl (fun gs hs g hg => by
    have := C150_unique _ _ _ _ hs exSettings
    subst this
    rw [List.mem_singleton] at hg
    subst hg
    simp [exGroup])

/-- A track with hits in the first and the last plane. -/
noncomputable def exMissing : Track 3 Unit := { BTA.Props.exTrack 1 with flag := 5 }

/-- C153: two hits are required, the tracks have two hits, and nothing is aligned. -/
example : hitsIn exMissing [0, 1, 2] = 2 ∧ Misses exMissing [0, 1, 2] ∧
    (alignKalman false id (exSetup [exMissing]) { exArgs with minHits := .one (some 2) } exDisk "t.yaml".toList none).output =
      .ok "t.yaml_aligned_kalman.yaml".toList ∧
    (alignKalman false id (exSetup [exMissing]) { exArgs with minHits := .one (some 2) } exDisk "t.yaml".toList none).disk.table = [] := by
  have hmiss : Misses exMissing [0, 1, 2] := ⟨1, by simp, by decide⟩
  have hret : (alignKalman false id (exSetup [exMissing]) { exArgs with minHits := .one (some 2) } exDisk "t.yaml".toList none).output =
      .ok "t.yaml_aligned_kalman.yaml".toList := by
    rw [C153_same_result false id (exSetup [exMissing]) exArgs exDisk "t.yaml".toList none rfl 2 le_rfl (fun gs hs g hg => by
      have := C150_unique _ _ _ _ hs exSettings
      subst this
      rw [List.mem_singleton] at hg
      subst hg
      simp [exGroup])]
    obtain ⟨start, cov, h1, h2, h3⟩ := C151_explicit_partial false id (exSetup [exMissing]) exDisk
      "t.yaml".toList none (BTA.Props.exAl 0) (by simp [exDisk]) _ exName [1] [[], ["translation_x"], []] (fun _ => 1) [0, 2] [0, 1, 2] [0, 1, 2] 10
      10000 5000 10000 none (by simp) (by simp) (by decide) (by simp) (by simp) (by simp) (by simp)
    obtain ⟨g1, g2, g3, -⟩ := h3 _ rfl _ rfl
    refine g3 ?_
    have hd : dataAligned Track.event [exMissing] { chunkSize := 100 } = ⟨[([exMissing], 1)], none⟩ :=
      BTA.Check.single_chunk Track.event [exMissing] 100 (by simp) (by simp)
    have hv : KAlign.valid (KAlign.hitMask [0, 1, 2]) exMissing = false := by
      show ((5 &&& KAlign.hitMask [0, 1, 2]) == KAlign.hitMask [0, 1, 2]) = false
      decide
    unfold alignmentLoop
    simp only [exSetup, hd, List.map_cons, List.map_nil, KAlign.chunkLoop, List.filter_cons, hv, List.filter_nil, KAlign.trackLoop,
      Bool.false_eq_true, if_false]
    rfl
  have hs := exSettings
  refine ⟨by decide, hmiss, hret, ?_⟩
  exact (C153_all_hits false id (exSetup [exMissing]) { exArgs with minHits := .one (some 2) } exDisk "t.yaml".toList none _ hret [exGroup]
    ⟨hs.duts, hs.parameters, hs.hit, hs.fit, hs.enough, hs.maxEvents, hs.maxTracks⟩ (fun i g hg t ht => by
      have hg' := List.mem_of_getElem? hg
      rw [List.mem_singleton] at hg'
      subst hg'
      have : t = exMissing := by simpa [exSetup] using ht
      subst this
      exact hmiss)).2

/-- C154: the first plane of the example is where it was, the one in the middle is not. -/
example : ∃ conf : Conf 3,
    (alignKalman false id (exSetup [BTA.Props.exTrack (-(1 / 50)), BTA.Props.exTrack 3]) exArgs exDisk "t.yaml".toList none).disk.store
      "t.yaml_aligned_kalman.yaml".toList = some conf ∧ conf 0 = BTA.Props.exAl 0 0 ∧ conf 1 ≠ BTA.Props.exAl 0 1 := by
  obtain ⟨conf, h1, h2, h3⟩ := exReturns
  refine ⟨conf, h2, ?_, fun h => ?_⟩
  · have := C154_other_duts false id _ exArgs exDisk "t.yaml".toList none (BTA.Props.exAl 0) (by simp [exDisk]) [[1]]
      exSettings.duts 0 (by simp [InGroup]) _ exName (BTA.Props.exAl 0) (by
        have : exDisk.store "t.yaml_aligned_kalman.yaml".toList = none := by
          unfold exDisk
          dsimp only
          rw [if_neg (by decide)]
        rw [this]
        rfl)
      (BTA.Props.exUsual 0 ⟨by linarith [Real.pi_pos], Real.pi_pos.le⟩ (Or.inl rfl) 0) conf h2
    exact this
  · rw [h] at h3
    revert h3
    show (0 : ℝ) ≠ 1 / 100
    norm_num

end BTA.KDriver.Props
