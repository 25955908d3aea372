import Verif.Props.AlignDriver
import Verif.Props.DataSelection
/-
C120: DUTs that are not selected for the alignment; C121: alignment parameters that are not selected; C122: configuration files of `align`;
C123: tracks used for the alignment; C125: temporary files of `align`.
-/
namespace BTA.Align.Props
open BTA.Dut BTA.Transformation BTA.Transformation.Props BTA.Transformation.Spec BTA.Align BTA.Align.Spec BTA.AlignTel.Props

/-! ### C120 -/

/-- C120, true part: of the DUTs that are not selected, the z position, the rotation and the limits are kept. Missing: the x and y
position. -/
theorem C120_partial (legacy : Bool) (root : List Char → List Char) (o : Oracle) (a : Args) (store : Store) (input : List Char)
    (output : Option (List Char)) (files : List Tmp) (r : Result) (h : align legacy root o a store input output files = .ok r) :
    ∃ conf gs q final, store input = some conf ∧ Settings legacy conf.n a gs q ∧ r.store r.output = some final ∧
      ∀ i, ¬InGroup gs i → SameFrame (((store r.output).getD conf).duts i) (final.duts i) := by
  obtain ⟨conf, s, h1, h2, -, h4, h5⟩ := align_ok h
  obtain ⟨gs, q⟩ := s
  refine ⟨conf, gs, q, r.world.conf, h1, (settings_iff _ _ _ _ _).mp h2, by rw [h5]; simp, fun i hi => ?_⟩
  refine run_conf (fun c => SameFrame (((store r.output).getD conf).duts i) (c.duts i)) ?_ ?_ h4
  · rw [startConf_other _ _ _ _ hi]
    exact sameFrame_refl _
  · intro g hg step w w' tel c1 c2 hp hit
    have hig : i ∉ g.duts := fun hd => hi ⟨g, hg, hd⟩
    show SameFrame _ (w'.conf.duts i)
    rw [iterated_other hit i hig]
    exact sameFrame_trans hp (beamed_kept hit.beamed i)

/-- C120: if no telescope DUT is aligned, the DUTs that are not selected are not changed at all. -/
theorem C120_no_telescope (legacy : Bool) (root : List Char → List Char) (o : Oracle) (a : Args) (store : Store) (input : List Char)
    (output : Option (List Char)) (files : List Tmp) (r : Result) (h : align legacy root o a store input output files = .ok r) :
    ∃ conf gs q final, store input = some conf ∧ Settings legacy conf.n a gs q ∧ r.store r.output = some final ∧
      (NoTelescope a.telescopeDuts gs → ∀ i, ¬InGroup gs i → final.duts i = ((store r.output).getD conf).duts i) := by
  obtain ⟨conf, s, h1, h2, -, h4, h5⟩ := align_ok h
  obtain ⟨gs, q⟩ := s
  refine ⟨conf, gs, q, r.world.conf, h1, (settings_iff _ _ _ _ _).mp h2, by rw [h5]; simp, fun hn i hi => ?_⟩
  refine run_conf (fun c => c.duts i = ((store r.output).getD conf).duts i) (startConf_other _ _ _ _ hi) ?_ h4
  intro g hg step w w' tel c1 c2 hp hit
  show w'.conf.duts i = _
  rw [iterated_other hit i (fun hd => hi ⟨g, hg, hd⟩), beamed_none hit.beamed (hn tel hit.telescope g hg)]
  exact hp

/-- C120: if neither a telescope DUT nor a fit DUT is aligned, the rotation of the telescope is not changed. -/
theorem C120_rotation (legacy : Bool) (root : List Char → List Char) (o : Oracle) (a : Args) (store : Store) (input : List Char)
    (output : Option (List Char)) (files : List Tmp) (r : Result) (h : align legacy root o a store input output files = .ok r) :
    ∃ conf gs q final, store input = some conf ∧ Settings legacy conf.n a gs q ∧ r.store r.output = some final ∧
      (NoTelescope a.telescopeDuts gs → NoFit gs →
        final.alpha = ((store r.output).getD conf).alpha ∧ final.beta = ((store r.output).getD conf).beta) := by
  obtain ⟨conf, s, h1, h2, -, h4, h5⟩ := align_ok h
  obtain ⟨gs, q⟩ := s
  refine ⟨conf, gs, q, r.world.conf, h1, (settings_iff _ _ _ _ _).mp h2, by rw [h5]; simp, fun hn hf => ?_⟩
  refine run_conf (fun c => c.alpha = ((store r.output).getD conf).alpha ∧ c.beta = ((store r.output).getD conf).beta)
    (startConf_rotation _ _ _) ?_ h4
  intro g hg step w w' tel c1 c2 hp hit
  show w'.conf.alpha = _ ∧ w'.conf.beta = _
  rw [hit.alpha, hit.beta, hit.rotation ((common_nil _ _).mpr (hf g hg)), beamed_none hit.beamed (hn tel hit.telescope g hg)]
  exact hp

/-- One group with one iteration. -/
theorem run_single {o : Oracle} {a : Args} {input : Conf} {existing : Option Conf} {files : List Tmp} {g : Group}
    {q : List (Option (ℝ × ℝ))} {w : World} (h : runAlign o a input existing files ([g], q) = .ok w) (h1 : g.iterations = 1) :
    ∃ w0 w1 tel c1 c2, w0.conf = startConf input existing [g] ∧ Iterated o a q g 0 w0 w1 tel c1 c2 ∧ w.conf = w1.conf := by
  obtain ⟨w1, h2, rfl⟩ := runAlign_ok h
  simp only [alignGroups] at h2
  split at h2
  · cases h2
  · obtain ⟨w2, h3, h4⟩ := bind_ok h2
    injection h4 with h4
    subst h4
    obtain ⟨w3, h5, h6⟩ := alignGroup_ok h3
    rw [h1] at h5
    simp only [iterations] at h5
    obtain ⟨w4, h7, h8⟩ := bind_ok h5
    injection h8 with h8
    subst h8
    obtain ⟨tel, c1, c2, hi⟩ := iteration_ok h7
    exact ⟨_, _, tel, c1, c2, findPrealigned_conf _ _, hi, (removeCandidates_ok h6).1⟩

/-- C120, refuted: in one iteration with one group that contains a telescope DUT, every DUT that is not selected is moved as the telescope
is: its new x and y position are those of `align_telescope`. -/
theorem C120_moved (legacy : Bool) (root : List Char → List Char) (o : Oracle) (a : Args) (store : Store) (input : List Char)
    (output : Option (List Char)) (files : List Tmp) (r : Result) (h : align legacy root o a store input output files = .ok r)
    (conf : Conf) (hc : store input = some conf) (g : Group) (q : List (Option (ℝ × ℝ))) (hs : Settings legacy conf.n a [g] q)
    (h1 : g.iterations = 1) (tel : List Nat) (ht : a.telescopeDuts = some tel) (hne : ∃ d ∈ g.duts, d ∈ tel) :
    ∃ final t, r.store r.output = some final ∧
      AlignTel.alignTelescope o.svd (toTel (startConf conf (store r.output) [g])) (common g.duts tel) none = .ok t ∧
      ∀ i, i < conf.n → store r.output = none → i ∉ g.duts → t.duts[i]? = some (final.duts i).alignment := by
  obtain ⟨conf', s, e1, e2, -, e4, e5⟩ := align_ok h
  rw [hc] at e1
  injection e1 with e1
  subst e1
  rw [(settings_iff _ _ _ _ _).mpr hs] at e2
  injection e2 with e2
  subst e2
  obtain ⟨w0, w1, tel', c1, c2, k1, k2, k3⟩ := run_single e4 h1
  have : tel' = tel := by
    have := k2.telescope
    rw [ht] at this
    injection this with this
    exact this.symm
  subst this
  rcases k2.beamed with ⟨b1, -⟩ | ⟨-, t, b2, b3⟩
  · obtain ⟨d, d1, d2⟩ := hne
    exact absurd d2 ((common_nil _ _).mp b1 d d1)
  · rw [k1] at b2
    refine ⟨r.world.conf, t, by rw [e5]; simp, b2, fun i hi hn hig => ?_⟩
    rw [k3, iterated_other k2 i hig, b3]
    have hn' : (startConf conf (store r.output) [g]).n = conf.n := by rw [hn]; rfl
    have hl : i < t.duts.length := by
      rw [(C111_kept _ _ _ _ _ b2).1]
      simpa [toTel, hn'] using hi
    simp [ofTel, List.getD_eq_getElem?_getD, List.getElem?_eq_getElem hl]

/-! ### C121 -/

theorem not_chosen {tel : List Nat} {gs : List Group} {d : Nat} {name : String} (hn : ¬Chosen tel gs d name)
    (hall : name ∈ allParameters) {g : Group} (hg : g ∈ gs) {p : Option (List String)} (hp : (d, p) ∈ g.duts.zip g.parameters) :
    name ∉ parametersFor tel d p := by
  intro hm
  refine hn ⟨g, hg, p, hp, ?_⟩
  cases p with
  | some l => exact hm
  | none =>
    intro hd
    unfold parametersFor at hm
    simp only [if_pos hd] at hm
    rintro rfl
    simp at hm

theorem translationName_mem (j : Fin 3) : translationName j ∈ allParameters := by
  fin_cases j <;> simp [translationName, allParameters]

/-- C121: the z position of a selected DUT is not changed if it is not to be aligned. If no telescope DUT is selected, the same holds for
the x and y position. -/
theorem C121_translation_partial (legacy : Bool) (root : List Char → List Char) (o : Oracle) (hf : 3 ≤ o.fuel) (a : Args) (store : Store)
    (input : List Char) (output : Option (List Char)) (files : List Tmp) (r : Result)
    (h : align legacy root o a store input output files = .ok r) (tel : List Nat) (ht : a.telescopeDuts = some tel) :
    ∃ conf gs q final, store input = some conf ∧ Settings legacy conf.n a gs q ∧ r.store r.output = some final ∧
      ∀ d, InGroup gs d → ∀ j : Fin 3, ¬Chosen tel gs d (translationName j) → j = 2 ∨ NoTelescope (some tel) gs →
        position (final.duts d).alignment j = position (conf.duts d).alignment j := by
  obtain ⟨conf, s, h1, h2, -, h4, h5⟩ := align_ok h
  obtain ⟨gs, q⟩ := s
  refine ⟨conf, gs, q, r.world.conf, h1, (settings_iff _ _ _ _ _).mp h2, by rw [h5]; simp, fun d hd j hc hj => ?_⟩
  refine run_conf (fun c => position (c.duts d).alignment j = position (conf.duts d).alignment j) ?_ ?_ h4
  · rw [startConf_in _ _ _ _ hd]
  · intro g hg step w w' tel' c1 c2 hp hit
    have : tel' = tel := by
      have := hit.telescope
      rw [ht] at this
      injection this with this
      exact this.symm
    subst this
    have hc1 : position (c1.duts d).alignment j = position (w.conf.duts d).alignment j := by
      rcases hj with rfl | hn
      · have := (beamed_kept hit.beamed d).1
        simpa [position] using this
      · rw [beamed_none hit.beamed (hn tel' rfl g hg)]
    have := transformed_keep hit.transformed (fun c => position c.alignment j = position (conf.duts d).alignment j) d
      (fun p hp' c out hcc hout => by
        show position out j = _
        rw [C76_fixed_translation _ _ _ hf _ _ _ _ hout j (not_chosen hc (translationName_mem j) hg hp')]
        exact hcc)
      (by rw [hit.duts, hc1]; exact hp)
    exact this

/-- C121: by default, the z position of telescope DUTs is not changed. -/
theorem C121_telescope_z (legacy : Bool) (root : List Char → List Char) (o : Oracle) (hf : 3 ≤ o.fuel) (a : Args) (store : Store)
    (input : List Char) (output : Option (List Char)) (files : List Tmp) (r : Result)
    (h : align legacy root o a store input output files = .ok r) (tel : List Nat) (ht : a.telescopeDuts = some tel) (hp : a.parameters = none) :
    ∃ conf gs q final, store input = some conf ∧ Settings legacy conf.n a gs q ∧ r.store r.output = some final ∧
      ∀ d ∈ tel, InGroup gs d → (final.duts d).alignment.z = (conf.duts d).alignment.z := by
  obtain ⟨conf, gs, q, final, h1, h2, h3, h4⟩ := C121_translation_partial legacy root o hf a store input output files r h tel ht
  refine ⟨conf, gs, q, final, h1, h2, h3, fun d hd hg => ?_⟩
  have := h4 d hg 2 ?_ (.inl rfl)
  · simpa [position] using this
  · rintro ⟨g, hgm, p, hpm, hc⟩
    have k := h2.parameters
    rw [hp] at k
    have k1 := k g hgm
    rw [k1] at hpm
    have := List.mem_replicate.mp (List.of_mem_zip hpm).2
    rw [this.2] at hc
    exact hc hd rfl

/-- C121: the rotation of a selected DUT is not changed if none of the angles is to be aligned. -/
theorem C121_rotation_partial (legacy : Bool) (root : List Char → List Char) (o : Oracle) (hf : 3 ≤ o.fuel) (hsvd : SvdCorrect o.np) (a : Args)
    (store : Store) (input : List Char) (output : Option (List Char)) (files : List Tmp) (r : Result)
    (h : align legacy root o a store input output files = .ok r) (tel : List Nat) (ht : a.telescopeDuts = some tel) :
    ∃ conf gs q final, store input = some conf ∧ Settings legacy conf.n a gs q ∧ r.store r.output = some final ∧
      ∀ d, InGroup gs d → Principal (conf.duts d).alignment →
        (∀ n ∈ ["rotation_alpha", "rotation_beta", "rotation_gamma"], ¬Chosen tel gs d n) →
        (final.duts d).alignment.alpha = (conf.duts d).alignment.alpha ∧ (final.duts d).alignment.beta = (conf.duts d).alignment.beta ∧
        (final.duts d).alignment.gamma = (conf.duts d).alignment.gamma := by
  obtain ⟨conf, s, h1, h2, -, h4, h5⟩ := align_ok h
  obtain ⟨gs, q⟩ := s
  refine ⟨conf, gs, q, r.world.conf, h1, (settings_iff _ _ _ _ _).mp h2, by rw [h5]; simp, fun d hd hpr hc => ?_⟩
  refine run_conf (fun c => (c.duts d).alignment.alpha = (conf.duts d).alignment.alpha ∧
    (c.duts d).alignment.beta = (conf.duts d).alignment.beta ∧ (c.duts d).alignment.gamma = (conf.duts d).alignment.gamma) ?_ ?_ h4
  · rw [startConf_in _ _ _ _ hd]
    exact ⟨rfl, rfl, rfl⟩
  · intro g hg step w w' tel' c1 c2 hp hit
    have : tel' = tel := by
      have := hit.telescope
      rw [ht] at this
      injection this with this
      exact this.symm
    subst this
    obtain ⟨-, b1, b2, b3, -⟩ := beamed_kept hit.beamed d
    have := transformed_keep hit.transformed (fun c => c.alignment.alpha = (conf.duts d).alignment.alpha ∧
        c.alignment.beta = (conf.duts d).alignment.beta ∧ c.alignment.gamma = (conf.duts d).alignment.gamma) d
      (fun p hp' c out hcc hout => by
        show out.alpha = _ ∧ out.beta = _ ∧ out.gamma = _
        have hprc : Principal c.alignment := by
          unfold Principal
          rw [hcc.1, hcc.2.1, hcc.2.2]
          exact hpr
        obtain ⟨k1, k2, k3⟩ := C76_fixed_rotation _ hsvd _ _ hf _ _ hprc _ _ hout
          (fun n hn => not_chosen (hc n hn) (by
            simp only [List.mem_cons, List.not_mem_nil, or_false] at hn
            rcases hn with rfl | rfl | rfl <;> simp [allParameters]) hg hp')
        rw [k1, k2, k3]
        exact hcc)
      (by rw [hit.duts, b1, b2, b3]; exact hp)
    exact this

/-- C121, refuted: x and y position are changed even if they are not to be aligned. With one iteration, one group, and telescope DUTs for
which x and y are not selected, one of them is at x = y = 0 afterwards, wherever it was. -/
theorem C121_reference (legacy : Bool) (root : List Char → List Char) (o : Oracle) (hf : 3 ≤ o.fuel) (a : Args) (store : Store) (input : List Char)
    (output : Option (List Char)) (files : List Tmp) (r : Result) (h : align legacy root o a store input output files = .ok r)
    (conf : Conf) (hc : store input = some conf) (g : Group) (q : List (Option (ℝ × ℝ))) (hs : Settings legacy conf.n a [g] q)
    (h1 : g.iterations = 1) (tel : List Nat) (ht : a.telescopeDuts = some tel) (hne : ∃ d ∈ g.duts, d ∈ tel)
    (hx : ∀ d ∈ tel, ¬Chosen tel [g] d "translation_x" ∧ ¬Chosen tel [g] d "translation_y") :
    ∃ final, r.store r.output = some final ∧ ∃ d ∈ g.duts, d ∈ tel ∧ (final.duts d).alignment.x = 0 ∧ (final.duts d).alignment.y = 0 := by
  obtain ⟨conf', s, e1, e2, -, e4, e5⟩ := align_ok h
  rw [hc] at e1
  injection e1 with e1
  subst e1
  rw [(settings_iff _ _ _ _ _).mpr hs] at e2
  injection e2 with e2
  subst e2
  obtain ⟨w0, w1, tel', c1, c2, k1, k2, k3⟩ := run_single e4 h1
  have : tel' = tel := by
    have := k2.telescope
    rw [ht] at this
    injection this with this
    exact this.symm
  subst this
  rcases k2.beamed with ⟨b1, -⟩ | ⟨-, t, b2, b3⟩
  · obtain ⟨d, d1, d2⟩ := hne
    exact absurd d2 ((common_nil _ _).mp b1 d d1)
  · obtain ⟨d, hd, al, hal, a1, a2, -⟩ := C111_reference_default _ _ _ _ b2
    obtain ⟨hdg, hdt⟩ := (mem_common _ _ _).mp hd
    refine ⟨r.world.conf, by rw [e5]; simp, d, hdg, hdt, ?_⟩
    have hstart : (c2.duts d).alignment = al := by
      rw [k2.duts, b3]
      simp [ofTel, List.getD_eq_getElem?_getD, hal]
    rw [k3]
    have key := fun (j : Fin 3) (hj : ¬Chosen tel' [g] d (translationName j)) =>
      transformed_keep k2.transformed (fun c => position c.alignment j = position al j) d
        (fun p hp' c out hcc hout => by
          show position out j = _
          rw [C76_fixed_translation _ _ _ hf _ _ _ _ hout j (not_chosen hj (translationName_mem j) (by simp) hp')]
          exact hcc)
        (by rw [hstart])
    have kx := key 0 (hx d hdt).1
    have ky := key 1 (hx d hdt).2
    simp only [position, Matrix.cons_val_zero, Matrix.cons_val_one] at kx ky
    exact ⟨kx.trans a1, ky.trans a2⟩

/-- C121: DUTs that are aligned already and are not part of the telescope stay where they are, whatever parameters are selected and however
many iterations are made. -/
theorem C121_aligned (legacy : Bool) (root : List Char → List Char) (o : Oracle) (hf : 3 ≤ o.fuel) (hsvd : SvdCorrect o.np) (a : Args)
    (store : Store) (input : List Char) (output : Option (List Char)) (files : List Tmp) (r : Result)
    (h : align legacy root o a store input output files = .ok r) :
    ∃ conf gs q final, store input = some conf ∧ Settings legacy conf.n a gs q ∧ r.store r.output = some final ∧
      (NoTelescope a.telescopeDuts gs → ∀ d, InGroup gs d → Principal (conf.duts d).alignment →
        (∀ calls, AllOnTrack (conf.duts d) a.useLimits (position (conf.duts d).alignment) (o.tables calls d)) →
        final.duts d = conf.duts d) := by
  obtain ⟨conf, s, h1, h2, -, h4, h5⟩ := align_ok h
  obtain ⟨gs, q⟩ := s
  refine ⟨conf, gs, q, r.world.conf, h1, (settings_iff _ _ _ _ _).mp h2, by rw [h5]; simp, fun hn d hd hpr hon => ?_⟩
  refine run_conf (fun c => c.duts d = conf.duts d) (startConf_in _ _ _ _ hd) ?_ h4
  intro g hg step w w' tel c1 c2 hp hit
  refine transformed_keep hit.transformed (fun c => c = conf.duts d) d (fun p hp' c out hcc hout => ?_) ?_
  · subst hcc
    rw [C77_aligned _ hsvd _ _ hf _ _ hpr _ (hon _) _ hout]
  · rw [hit.duts, beamed_none hit.beamed (hn tel hit.telescope g hg)]
    exact hp

/-! ### C122 -/

theorem replace_length (old new : List Char) (hl : new.length ≤ old.length) (ho : old ≠ []) : ∀ (s : List Char) (skip : Nat),
    (replaceFrom old new skip s).length + min skip s.length ≤ s.length
  | [], skip => by simp [replaceFrom]
  | c :: r, 0 => by
    simp only [replaceFrom]
    split
    · next hp =>
      have h1 := replace_length old new hl ho r (old.length - 1)
      have h2 : old.length ≤ (c :: r).length := (List.isPrefixOf_iff_prefix.mp hp).length_le
      have h3 : 0 < old.length := List.length_pos_iff.mpr ho
      simp only [List.length_cons, List.length_append] at *
      omega
    · have := replace_length old new hl ho r 0
      simp only [List.length_cons] at *
      omega
  | c :: r, skip + 1 => by
    simp only [replaceFrom]
    have := replace_length old new hl ho r skip
    simp only [List.length_cons] at *
    omega

theorem replace_shorter (old new : List Char) (hl : new.length < old.length) (ho : old ≠ []) : ∀ (s : List Char), contains old s = true →
    (replaceFrom old new 0 s).length < s.length
  | [], h => by
    simp only [contains, List.isEmpty_iff] at h
    exact absurd h ho
  | c :: r, h => by
    simp only [replaceFrom]
    split
    · next hp =>
      have h1 := replace_length old new hl.le ho r (old.length - 1)
      have h2 : old.length ≤ (c :: r).length := (List.isPrefixOf_iff_prefix.mp hp).length_le
      have h3 : 0 < old.length := List.length_pos_iff.mpr ho
      simp only [List.length_cons, List.length_append] at *
      omega
    · next hp =>
      simp only [contains, Bool.or_eq_true, hp, false_or, Bool.false_eq_true] at h
      have := replace_shorter old new hl ho r h
      simp only [List.length_cons]
      omega

theorem outputName_ne (root : List Char → List Char) (hr : SplitsExtension root) (input : List Char) (output : Option (List Char))
    (out : List Char) (h : outputName root input output = .ok out) : out ≠ input := by
  unfold outputName at h
  cases output with
  | some o =>
    dsimp only at h
    split at h
    · cases h
    · next hne =>
      injection h with h
      rw [← h]
      exact hne
  | none =>
    dsimp only at h
    split at h
    · next hc =>
      injection h with h
      intro he
      have := replace_shorter "prealigned".toList "aligned".toList (by decide) (by decide) input hc
      rw [h, he] at this
      exact lt_irrefl _ this
    · injection h with h
      intro he
      rw [← h] at he
      rcases hr input with h0 | ⟨e, h0⟩
      · have := congrArg List.length he
        rw [h0] at this
        simp at this
      · nth_rewrite 2 [h0] at he
        have := List.append_cancel_left he
        simp at this

/-- C122: only the output configuration file is written, and it is never the input file. -/
theorem C122_files (legacy : Bool) (root : List Char → List Char) (hr : SplitsExtension root) (o : Oracle) (a : Args) (store : Store)
    (input : List Char) (output : Option (List Char)) (files : List Tmp) (r : Result)
    (h : align legacy root o a store input output files = .ok r) :
    r.output ≠ input ∧ (∀ f, output = some f → r.output = f) ∧ (∀ f, f ≠ r.output → r.store f = store f) ∧ r.store r.output ≠ none := by
  obtain ⟨conf, s, h1, h2, h3, h4, h5⟩ := align_ok h
  refine ⟨outputName_ne root hr input output _ h3, fun f hf => ?_, fun f hf => by rw [h5]; simp [hf], by rw [h5]; simp⟩
  unfold outputName at h3
  subst hf
  dsimp only at h3
  split at h3
  · cases h3
  · injection h3 with h3
    exact h3.symm

/-- C122: the input file as output file is refused. -/
theorem C122_same (legacy : Bool) (root : List Char → List Char) (o : Oracle) (a : Args) (store : Store) (input : List Char)
    (files : List Tmp) : ∃ e, align legacy root o a store input (some input) files = .error e := by
  cases h : align legacy root o a store input (some input) files with
  | error e => exact ⟨e, rfl⟩
  | ok r =>
    obtain ⟨conf, s, h1, h2, h3, -⟩ := align_ok h
    simp [outputName] at h3

/-- The oldest call of a kind. -/
theorem iterations_first {β : Type} (f : Call → Option β) (hf : ∀ a q g step c c2, ∃ v, (stepCalls a q g step c c2).filterMap f = [v])
    {o : Oracle} {a : Args} {q : List (Option (ℝ × ℝ))} {g : Group} (start : Conf) (Good : β → Prop)
    (hgood : ∀ step w w' tel c1 c2 v, w.conf = start → Iterated o a q g step w w' tel c1 c2 →
      (stepCalls a q g step c1 c2).filterMap f = [v] → Good v) (k step : Nat) (w w' : World)
    (hp : (w.calls.filterMap f = [] ∧ w.conf = start) ∨ ∃ l v, w.calls.filterMap f = l ++ [v] ∧ Good v)
    (h : iterations o a q g k step w = .ok w') :
    (w'.calls.filterMap f = [] ∧ w'.conf = start) ∨ ∃ l v, w'.calls.filterMap f = l ++ [v] ∧ Good v := by
  refine iterations_inv (fun _ w => (w.calls.filterMap f = [] ∧ w.conf = start) ∨ ∃ l v, w.calls.filterMap f = l ++ [v] ∧ Good v) ?_ k step w w' hp h
  intro step w w' tel c1 c2 hw hi
  right
  obtain ⟨v, hv⟩ := hf a q g step c1 c2
  rcases hw with ⟨h1, h2⟩ | ⟨l, u, h1, h2⟩
  · exact ⟨[], v, by rw [hi.calls, List.filterMap_append, hv, h1]; rfl, hgood step w w' tel c1 c2 v h2 hi hv⟩
  · exact ⟨v :: l, u, by rw [hi.calls, List.filterMap_append, hv, h1]; rfl, h2⟩

theorem stepCalls_conf (a : Args) (q : List (Option (ℝ × ℝ))) (g : Group) (step : Nat) (c c2 : Conf) :
    (stepCalls a q g step c c2).filterMap fitConf = [c] := by
  unfold stepCalls findCall
  split <;> split <;> split <;> rfl

/-- C122: the configuration of the first track fit. The selected DUTs are taken from the input file; if the output file exists already, all
others and the rotation of the telescope are taken from there. Only `align_telescope` can have changed it. -/
theorem C122_start (legacy : Bool) (root : List Char → List Char) (o : Oracle) (a : Args) (store : Store) (input : List Char)
    (output : Option (List Char)) (files : List Tmp) (r : Result) (h : align legacy root o a store input output files = .ok r) (c : Conf)
    (hc : (r.world.calls.reverse.filterMap fitConf).head? = some c) :
    ∃ conf gs q, store input = some conf ∧ Settings legacy conf.n a gs q ∧
      (∀ i, (InGroup gs i → SameFrame (conf.duts i) (c.duts i)) ∧ (¬InGroup gs i → SameFrame (((store r.output).getD conf).duts i) (c.duts i))) ∧
      (NoTelescope a.telescopeDuts gs → c.alpha = ((store r.output).getD conf).alpha ∧ c.beta = ((store r.output).getD conf).beta ∧
        ∀ i, (InGroup gs i → c.duts i = conf.duts i) ∧ (¬InGroup gs i → c.duts i = ((store r.output).getD conf).duts i)) := by
  obtain ⟨conf, s, h1, h2, -, h4, h5⟩ := align_ok h
  obtain ⟨gs, q⟩ := s
  obtain ⟨w1, k1, k2⟩ := runAlign_ok h4
  refine ⟨conf, gs, q, h1, (settings_iff _ _ _ _ _).mp h2, ?_⟩
  have key : ∃ l, w1.calls.filterMap fitConf = l ++ [c] := by
    rw [k2, List.filterMap_reverse, List.head?_reverse] at hc
    exact ⟨_, (List.dropLast_append_getLast? _ hc).symm⟩
  have hinv := alignGroups_inv (o := o) (a := a) (input := conf) (quality := q)
    (fun w => (w.calls.filterMap fitConf = [] ∧ w.conf = startConf conf (store r.output) gs) ∨
      ∃ l v, w.calls.filterMap fitConf = l ++ [v] ∧
        ((∀ i, SameFrame ((startConf conf (store r.output) gs).duts i) (v.duts i)) ∧
          (NoTelescope a.telescopeDuts gs → v = startConf conf (store r.output) gs))) gs ?_ _ w1 ?_ k1
  · rcases hinv with ⟨e1, -⟩ | ⟨l, v, e1, e2, e3⟩
    · obtain ⟨l, hl⟩ := key
      rw [hl] at e1
      simp at e1
    · obtain ⟨l', hl⟩ := key
      rw [hl] at e1
      obtain ⟨-, e4⟩ := List.append_inj' e1 rfl
      injection e4 with e4
      subst e4
      refine ⟨fun i => ⟨fun hi => ?_, fun hi => ?_⟩, fun hn => ?_⟩
      · have := e2 i
        rwa [startConf_in _ _ _ _ hi] at this
      · have := e2 i
        rwa [startConf_other _ _ _ _ hi] at this
      · have := e3 hn
        subst this
        exact ⟨(startConf_rotation _ _ _).1, (startConf_rotation _ _ _).2, fun i => ⟨startConf_in _ _ _ _, startConf_other _ _ _ _⟩⟩
  · intro g hg w w' hw hgr
    obtain ⟨w2, g1, g2⟩ := alignGroup_ok hgr
    obtain ⟨r1, r2, -⟩ := removeCandidates_ok g2
    rw [r1, r2]
    refine iterations_first fitConf (fun a q g step c c2 => ⟨c, stepCalls_conf a q g step c c2⟩) (startConf conf (store r.output) gs) _ ?_ _ _ _ _ ?_ g1
    · intro step w w' tel c1 c2 v hst hi hv
      rw [stepCalls_conf] at hv
      injection hv with hv
      subst hv
      refine ⟨fun i => ?_, fun hn => ?_⟩
      · rw [← hst]
        exact beamed_kept hi.beamed i
      · rw [beamed_none hi.beamed (hn tel hi.telescope g hg), hst]
    · have : (findPrealigned conf w).calls.filterMap fitConf = w.calls.filterMap fitConf := by
        unfold findPrealigned
        split <;> rfl
      rw [this, findPrealigned_conf]
      exact hw
  · exact .inl ⟨rfl, rfl⟩

/-! ### C123 -/

theorem printed_close (c : ℝ) : |printed c - c| ≤ 5e-7 := by
  unfold printed
  have h := abs_sub_round (c * 10 ^ 6)
  have : (round (c * 10 ^ 6) : ℝ) / 10 ^ 6 - c = -((c * 10 ^ 6 - round (c * 10 ^ 6)) / 10 ^ 6) := by ring
  rw [this, abs_neg, abs_div, abs_of_pos (show (0 : ℝ) < 10 ^ 6 by norm_num), div_le_iff₀ (by norm_num)]
  refine h.trans ?_
  norm_num

theorem queryOf_spec (chi2 : Option ℝ) (shapes : Option (List Nat)) : IsQuery chi2 shapes (queryOf chi2 shapes) := by
  refine ⟨?_, ?_⟩
  · cases chi2 with
    | none => rfl
    | some c =>
      refine ⟨fun h => by simp [queryOf, h], fun h => ⟨printed c, by simp [queryOf, h], printed_close c⟩⟩
  · cases shapes with
    | none => rfl
    | some l => rfl

/-- C123: the tracks are selected once per iteration, each DUT with the hits required in the group, its own limit of chi2 and its own cluster
shapes. -/
theorem C123_selection (legacy : Bool) (root : List Char → List Char) (o : Oracle) (a : Args) (store : Store) (input : List Char)
    (output : Option (List Char)) (files : List Tmp) (r : Result) (h : align legacy root o a store input output files = .ok r) :
    ∃ conf gs q, store input = some conf ∧ Settings legacy conf.n a gs q ∧
      ∃ (hits : Group → List (List Nat)) (queries : Group → List Query),
        (∀ g, List.Forall₂ (fun d l => l.Nodup ∧ ∀ x, x ∈ l ↔ x ∈ g.hitDuts ∨ x = d) g.duts (hits g)) ∧
        (∀ g ∈ gs, (queries g).length = g.duts.length ∧ ∀ (k : Nat) c s, g.chi2[k]? = some c → g.shapes[k]? = some s →
          ∃ u, (queries g)[k]? = some u ∧ IsQuery c s u) ∧
        r.world.calls.reverse.filterMap selectionOf = gs.flatMap fun g => List.replicate g.iterations (g.duts, hits g, queries g) := by
  obtain ⟨conf, s, h1, h2, -, h4, -⟩ := align_ok h
  obtain ⟨gs, q⟩ := s
  obtain ⟨w1, h5, h6⟩ := runAlign_ok h4
  have hset := (settings_iff _ _ _ _ _).mp h2
  refine ⟨conf, gs, q, h1, hset, requiredHits, fun g => List.zipWith queryOf g.chi2 g.shapes, fun g => ?_, fun g hg => ?_, ?_⟩
  · unfold requiredHits
    rw [List.forall₂_map_right_iff, List.forall₂_same]
    intro d _
    exact ⟨List.nodup_dedup _, fun x => by simp⟩
  · refine ⟨?_, fun k c s hk hs => ⟨queryOf c s, by simp [List.getElem?_zipWith, hk, hs], queryOf_spec c s⟩⟩
    have hc : g.chi2.length = g.duts.length := chi2_length hset.chi2 g hg
    have hs : g.shapes.length = g.duts.length := shapes_length hset.shapes g hg
    simp [hc, hs]
  · rw [h6]
    have := run_calls selectionOf (fun g => (g.duts, requiredHits g, List.zipWith queryOf g.chi2 g.shapes)) (fun _ _ _ => rfl)
      stepCalls_select gs _ _ h5
    simpa [cleanUp] using this

/-- C123: of the fitted tracks of DUT `d`, exactly those are used for the alignment that have a hit in all hit DUTs of the group and in `d`,
where all these hits have the quality flag and are isolated, and for which the query is true. -/
theorem C123_tracks {R : Type} (ev : R → Int) (flags : R → Sel.Flags) (chi : R → ℝ) (shape : R → Nat) (S : Fit.Sampling) (cs : Nat) (hcs : 0 < cs)
    (T : List R) (hT : BTA.Spec.SortedBy ev T) (hm : ∀ e, BTA.Spec.multiplicity ev T e < cs) (hf : ∀ t ∈ T, (flags t).hit < 2 ^ 32)
    (g : Group) (d : Nat) (hits : List Nat) (hh : ∀ x, x ∈ hits ↔ x ∈ g.hitDuts ∨ x = d) (u : Query) (t : R) :
    t ∈ (Sel.selectDut ev flags (criteriaOf hits) (testOf chi shape u) S 0 cs T).1 ↔
      t ∈ T ∧ (∀ x, x ∈ g.hitDuts ∨ x = d → (flags t).hit.testBit x = true ∧ (flags t).quality.testBit x = true ∧
        (flags t).isoTrack.testBit x = true ∧ (flags t).isoHit.testBit x = true) ∧
      (∀ c, u.chi2 = some c → chi t < c) ∧ (u.shapes ≠ [] → shape t ∈ u.shapes) := by
  rw [BTA.Props.C40_select_dut ev flags _ _ S cs hcs T hT hm hf (by simp [criteriaOf])]
  simp only [List.mem_filter, Bool.and_eq_true, decide_eq_true_eq]
  refine and_congr_right fun _ => and_congr ?_ ?_
  · unfold BTA.Spec.Required criteriaOf
    dsimp only
    constructor
    · rintro ⟨h1, -, h3, h4, h5⟩ x hx
      have hx' := (hh x).mpr hx
      exact ⟨h1 x hx', h3 x hx' (h1 x hx'), h4 x hx', h5 x hx' (h1 x hx')⟩
    · intro h
      refine ⟨fun x hx => (h x ((hh x).mp hx)).1, by simp, fun x hx _ => (h x ((hh x).mp hx)).2.1, fun x hx => (h x ((hh x).mp hx)).2.2.1,
        fun x hx _ => (h x ((hh x).mp hx)).2.2.2⟩
  · unfold testOf BTA.Spec.queryTrue
    rcases hu : u.chi2 with _ | c
    · by_cases hs : u.shapes = []
      · simp [hs]
      · simp [hs]
    · by_cases hs : u.shapes = []
      · simp [hs]
      · simp [hs]

/-! ### C125 -/

/-- C125: after a successful alignment no new temporary file is left. -/
theorem C125_no_files (legacy : Bool) (root : List Char → List Char) (o : Oracle) (a : Args) (store : Store) (input : List Char)
    (output : Option (List Char)) (files : List Tmp) (r : Result) (h : align legacy root o a store input output files = .ok r) :
    ∀ f ∈ r.world.files, f ∈ files := by
  obtain ⟨conf, s, h1, h2, -, h4, -⟩ := align_ok h
  obtain ⟨w1, h5, h6⟩ := runAlign_ok h4
  have hinv := alignGroups_inv (o := o) (a := a) (input := conf) (quality := s.2) (fun w => ∀ f ∈ w.files, f ∈ files ∨ f = .prealigned) s.1 ?_ _ w1 ?_ h5
  · intro f hf
    rw [h6] at hf
    simp only [cleanUp, List.mem_filter, decide_eq_true_eq] at hf
    exact (hinv f hf.1).resolve_right (by simpa using hf.2)
  · intro g _ w w' hw hg
    obtain ⟨w2, g1, g2⟩ := alignGroup_ok hg
    have k := iterations_inv (o := o) (a := a) (quality := s.2) (g := g)
      (fun step w => ∀ f ∈ w.files, f ∈ files ∨ f = .prealigned ∨ (1 < step ∧ f = .candidates g.duts (step - 1))) ?_ g.iterations 0 _ w2 ?_ g1
    · intro f hf
      obtain ⟨m1, m2⟩ := ((removeCandidates_ok g2).2.2 f).mp hf
      rcases k f m1 with e | e | ⟨e1, e2⟩
      · exact .inl e
      · exact .inr e
      · rw [Nat.zero_add] at e1 e2
        exact absurd e2 (m2 (by omega))
    · intro step w w' tel c1 c2 hw hi f hf
      rcases hi.files f hf with ⟨e1, e2⟩ | ⟨e1, e2⟩
      · exact .inr (.inr ⟨by omega, by simpa using e2⟩)
      · rcases hw f e1 with e | e | ⟨e3, e4⟩
        · exact .inl e
        · exact .inr (.inl e)
        · exact absurd e4 (e2 e3)
    · intro f hf
      have : f ∈ w.files ∨ f = .prealigned := by
        unfold findPrealigned at hf
        split at hf
        · exact .inl hf
        · rcases (call_files _ _ _ _).mp hf with e | e
          · exact .inr e
          · exact .inl e
      rcases this with e | e
      · rcases hw f e with e | e
        · exact .inl e
        · exact .inr (.inl e)
      · exact .inr (.inl e)
  · intro f hf
    simp only [List.mem_filter] at hf
    exact .inl hf.1

theorem stepCalls_prealigned (a : Args) (q : List (Option (ℝ × ℝ))) (g : Group) (step : Nat) (c c2 : Conf) :
    (stepCalls a q g step c c2).filterMap prealignedOf = [] := by
  unfold stepCalls findCall
  split <;> split <;> split <;> rfl

/-- C125: the track candidates of the first iterations are found once for all groups, with the input configuration and all events. -/
theorem C125_candidates_once (legacy : Bool) (root : List Char → List Char) (o : Oracle) (a : Args) (store : Store) (input : List Char)
    (output : Option (List Char)) (files : List Tmp) (r : Result) (h : align legacy root o a store input output files = .ok r) :
    ∃ conf, store input = some conf ∧ r.world.calls.filterMap prealignedOf = [(conf, none)] := by
  obtain ⟨conf, s, h1, h2, -, h4, -⟩ := align_ok h
  obtain ⟨w1, h5, h6⟩ := runAlign_ok h4
  refine ⟨conf, h1, ?_⟩
  have hset := (settings_iff legacy conf.n a s.1 s.2).mp h2
  have step : ∀ g w w', (.prealigned ∈ w.files ∧ w.calls.filterMap prealignedOf = [(conf, none)]) ∨
      (.prealigned ∉ w.files ∧ w.calls.filterMap prealignedOf = []) → alignGroup o a s.2 g (findPrealigned conf w) = .ok w' →
      .prealigned ∈ w'.files ∧ w'.calls.filterMap prealignedOf = [(conf, none)] := by
    intro g w w' hw hg
    have hp : .prealigned ∈ (findPrealigned conf w).files ∧ (findPrealigned conf w).calls.filterMap prealignedOf = [(conf, none)] := by
      unfold findPrealigned
      rcases hw with ⟨e1, e2⟩ | ⟨e1, e2⟩
      · rw [if_pos e1]
        exact ⟨e1, e2⟩
      · rw [if_neg e1]
        exact ⟨(call_files _ _ _ _).mpr (.inl rfl), by simp [World.call, prealignedOf, e2]⟩
    obtain ⟨w2, g1, g2⟩ := alignGroup_ok hg
    obtain ⟨r1, r2, r3⟩ := removeCandidates_ok g2
    have k := iterations_inv (o := o) (a := a) (quality := s.2) (g := g)
      (fun _ w => .prealigned ∈ w.files ∧ w.calls.filterMap prealignedOf = [(conf, none)])
      (fun st w w' tel c1 c2 hw hi => ⟨hi.kept _ hw.1 rfl, by rw [hi.calls, List.filterMap_append, stepCalls_prealigned, hw.2]; rfl⟩)
      _ _ _ _ hp g1
    exact ⟨(r3 _).mpr ⟨k.1, fun _ => by simp⟩, by rw [r2]; exact k.2⟩
  cases hgs : s.1 with
  | nil =>
    exfalso
    have := isGroups_ne hset.duts
    rw [hgs] at this
    exact this rfl
  | cons g gs =>
    rw [hgs] at h5
    simp only [alignGroups] at h5
    split at h5
    · cases h5
    · obtain ⟨w2, k1, k2⟩ := bind_ok h5
      have e := step g _ w2 (.inr ⟨by simp, rfl⟩) k1
      have := alignGroups_inv (o := o) (a := a) (input := conf) (quality := s.2)
        (fun w => .prealigned ∈ w.files ∧ w.calls.filterMap prealignedOf = [(conf, none)]) gs
        (fun g _ w w' hw hg => step g w w' (.inl hw) hg) _ w1 e k2
      rw [h6]
      exact this.2

/-- C125: the limit `max_events` of the group holds in every iteration: the track fit has it, or it reads track candidates that have been
found with it. -/
theorem C125_max_events (legacy : Bool) (root : List Char → List Char) (o : Oracle) (a : Args) (store : Store) (input : List Char)
    (output : Option (List Char)) (files : List Tmp) (r : Result) (h : align legacy root o a store input output files = .ok r) :
    ∃ conf gs q, store input = some conf ∧ Settings legacy conf.n a gs q ∧
      ∀ c inp out m duts fit hits qual lim, Call.fitTracks c inp out m duts fit hits qual lim ∈ r.world.calls →
        ∃ g ∈ gs, duts = g.duts ∧ ((inp = .prealigned ∧ m = g.maxEvents) ∨
          (∃ step, inp = .candidates g.duts step ∧ m = none ∧ Call.findTracks c inp g.maxEvents ∈ r.world.calls)) := by
  obtain ⟨conf, s, h1, h2, -, h4, -⟩ := align_ok h
  obtain ⟨w1, h5, h6⟩ := runAlign_ok h4
  refine ⟨conf, s.1, s.2, h1, (settings_iff legacy conf.n a s.1 s.2).mp h2, ?_⟩
  rw [h6]
  show ∀ c inp out m duts fit hits qual lim, Call.fitTracks c inp out m duts fit hits qual lim ∈ w1.calls → _
  refine alignGroups_inv (o := o) (a := a) (input := conf) (quality := s.2)
    (fun w => ∀ c inp out m duts fit hits qual lim, Call.fitTracks c inp out m duts fit hits qual lim ∈ w.calls →
        ∃ g ∈ s.1, duts = g.duts ∧ ((inp = .prealigned ∧ m = g.maxEvents) ∨
          (∃ step, inp = .candidates g.duts step ∧ m = none ∧ Call.findTracks c inp g.maxEvents ∈ w.calls))) s.1 ?_ _ w1 ?_ h5
  · intro g hg w w' hw hgr
    obtain ⟨w2, g1, g2⟩ := alignGroup_ok hgr
    rw [(removeCandidates_ok g2).2.1]
    refine iterations_inv (o := o) (a := a) (quality := s.2) (g := g)
      (fun _ w => ∀ c inp out m duts fit hits qual lim, Call.fitTracks c inp out m duts fit hits qual lim ∈ w.calls →
        ∃ g ∈ s.1, duts = g.duts ∧ ((inp = .prealigned ∧ m = g.maxEvents) ∨
          (∃ step, inp = .candidates g.duts step ∧ m = none ∧ Call.findTracks c inp g.maxEvents ∈ w.calls))) ?_ _ _ _ w2 ?_ g1
    · intro step w w' tel c1 c2 hw hi c inp out m duts fit hits qual lim hmem
      rw [hi.calls, List.mem_append] at hmem
      rcases hmem with hmem | hmem
      · have key : c = c1 ∧ inp = (if step = 0 then .prealigned else .candidates g.duts step) ∧
            m = (if step > 0 then none else g.maxEvents) ∧ duts = g.duts := by
          unfold stepCalls findCall at hmem
          simp only [List.mem_append] at hmem
          rcases hmem with ((hmem | hmem) | hmem) | hmem
          · split at hmem <;> simp at hmem
          · split at hmem <;> simp at hmem
          · simp only [List.mem_cons, reduceCtorEq, List.not_mem_nil, or_false, false_or, Call.fitTracks.injEq] at hmem
            exact ⟨hmem.1, hmem.2.1, hmem.2.2.2.1, hmem.2.2.2.2.1⟩
          · split at hmem <;> simp at hmem
        obtain ⟨rfl, rfl, rfl, rfl⟩ := key
        refine ⟨g, hg, rfl, ?_⟩
        by_cases hs : step = 0
        · subst hs
          exact .inl ⟨rfl, rfl⟩
        · refine .inr ⟨step, by simp [hs], by rw [if_pos (by omega)], ?_⟩
          rw [hi.calls, if_neg hs]
          refine List.mem_append_left _ ?_
          unfold stepCalls findCall
          simp [hs]
      · obtain ⟨g', k1, k2, k3⟩ := hw c inp out m duts fit hits qual lim hmem
        refine ⟨g', k1, k2, k3.imp id ?_⟩
        rintro ⟨st, e1, e2, e3⟩
        exact ⟨st, e1, e2, by rw [hi.calls]; exact List.mem_append_right _ e3⟩
    · intro c inp out m duts fit hits qual lim hmem
      unfold findPrealigned at hmem ⊢
      split at hmem
      · next hp =>
        simp only [if_pos hp]
        exact hw _ _ _ _ _ _ _ _ _ hmem
      · next hp =>
        simp only [if_neg hp]
        simp only [World.call, List.mem_cons, reduceCtorEq, false_or] at hmem ⊢
        obtain ⟨g', k1, k2, k3⟩ := hw c inp out m duts fit hits qual lim hmem
        refine ⟨g', k1, k2, k3.imp id ?_⟩
        rintro ⟨st, e1, e2, e3⟩
        exact ⟨st, e1, e2, .inr e3⟩
  · intro c inp out m duts fit hits qual lim hmem
    cases hmem

/-! Removing files never fails. -/

theorem removeCandidates_error {g : Group} {step : Nat} {w : World} {e : Err} (h : removeCandidates g step w = .error e) :
    step ≠ 0 ∧ .candidates g.duts step ∉ w.files := by
  unfold removeCandidates at h
  split at h
  · cases h
  · next hs => exact ⟨hs, (remove_error h).2⟩

theorem iteration_missing {o : Oracle} {a : Args} {q : List (Option (ℝ × ℝ))} {g : Group} {step : Nat} {w : World}
    (hw : 1 < step → .candidates g.duts (step - 1) ∈ w.files) (h : iteration o a q g step w = .error .missingFile) : False := by
  unfold iteration at h
  split at h
  · cases h
  · next tel htel =>
    rcases bind_error h with h1 | ⟨w1, h1, k1⟩
    · unfold toBeam at h1
      split at h1
      · cases h1
      · split at h1 <;> cases h1
    obtain ⟨-, f1, -⟩ := toBeam_ok h1
    rcases bind_error k1 with h2 | ⟨w2, h2, k2⟩
    · unfold readQuality at h2
      split at h2 <;> cases h2
    obtain ⟨rfl, -⟩ := readQuality_ok h2
    rcases bind_error k2 with h3 | ⟨w3, h3, k3⟩
    · unfold findCandidates at h3
      split at h3
      · cases h3
      · split at h3
        · next e he =>
          obtain ⟨e1, e2⟩ := removeCandidates_error he
          rw [f1] at e2
          exact e2 (hw (by omega))
        · cases h3
    have t1 : .tracks g.duts step ∈ (selectStep g step (fitStep a.useLimits q g step w3)).files := by
      unfold selectStep fitStep
      exact (call_files _ _ _ _).mpr (.inr ((call_files _ _ _ _).mpr (.inl rfl)))
    have t2 : .selected g.duts step ∈ (selectStep g step (fitStep a.useLimits q g step w3)).files := by
      unfold selectStep
      exact (call_files _ _ _ _).mpr (.inl rfl)
    rcases bind_error k3 with h4 | ⟨w4, h4, k4⟩
    · unfold angleStep at h4
      split at h4
      · cases h4
      · refine (remove_error h4).2 ?_
        split <;> simp [World.call]
    obtain ⟨-, -, -, -, -, f4⟩ := angleStep_ok h4
    rcases bind_error k4 with h5 | ⟨w5, h5, k5⟩
    · unfold residualStep at h5
      split at h5
      · exact (remove_error h5).2 ((call_files _ _ _ _).mpr (.inl rfl))
      · cases h5
    obtain ⟨-, -, -, f5⟩ := residualStep_ok h5
    rcases bind_error k5 with h6 | ⟨w6, h6, k6⟩
    · unfold transformStep at h6
      split at h6 <;> cases h6
    obtain ⟨-, -, -, -, -, f6⟩ := transformStep_ok h6
    have u1 : .tracks g.duts step ∈ w6.files := by
      rw [f6]
      exact (f5 _ ((f4 _ t1).resolve_right (by simp))).resolve_right (by simp)
    have u2 : .selected g.duts step ∈ w6.files := by
      rw [f6]
      exact (f5 _ ((f4 _ t2).resolve_right (by simp))).resolve_right (by simp)
    rcases bind_error k6 with h7 | ⟨w7, h7, k7⟩
    · exact (remove_error h7).2 u1
    · refine (remove_error k7).2 (((remove_ok h7).2.2.2 _).mpr ⟨u2, by simp⟩)

theorem iterations_missing {o : Oracle} {a : Args} {q : List (Option (ℝ × ℝ))} {g : Group} : ∀ (k step : Nat) (w : World),
    (1 < step → .candidates g.duts (step - 1) ∈ w.files) → iterations o a q g k step w = .error .missingFile → False
  | 0, _, _, _, h => by cases h
  | k + 1, step, w, hw, h => by
    simp only [iterations] at h
    rcases bind_error h with h1 | ⟨w1, h1, h2⟩
    · exact iteration_missing hw h1
    · obtain ⟨tel, c1, c2, hi⟩ := iteration_ok h1
      exact iterations_missing k (step + 1) w1 (fun hs => by simpa using hi.candidates (by omega)) h2

theorem alignGroup_missing {o : Oracle} {a : Args} {q : List (Option (ℝ × ℝ))} {g : Group} {w : World}
    (h : alignGroup o a q g w = .error .missingFile) : False := by
  unfold alignGroup at h
  rcases bind_error h with h1 | ⟨w1, h1, h2⟩
  · exact iterations_missing _ _ _ (by omega) h1
  · obtain ⟨e1, e2⟩ := removeCandidates_error h2
    have := iterations_inv (o := o) (a := a) (quality := q) (g := g) (fun step w => 1 < step → .candidates g.duts (step - 1) ∈ w.files)
      (fun step w w' tel c1 c2 _ hi hs => by simpa using hi.candidates (by omega)) g.iterations 0 _ w1 (by omega) h1
    rw [Nat.zero_add] at this
    exact e2 (this (by omega))

theorem alignGroups_missing {o : Oracle} {a : Args} {input : Conf} {q : List (Option (ℝ × ℝ))} : ∀ (gs : List Group) (w : World),
    alignGroups o a input q gs w = .error .missingFile → False
  | [], w, h => by cases h
  | g :: gs, w, h => by
    simp only [alignGroups] at h
    split at h
    · cases h
    · rcases bind_error h with h1 | ⟨w1, h1, h2⟩
      · exact alignGroup_missing h1
      · exact alignGroups_missing gs w1 h2

/-- C125: the alignment removes only files that exist. -/
theorem C125_never_missing (o : Oracle) (a : Args) (input : Conf) (existing : Option Conf) (files : List Tmp)
    (s : List Group × List (Option (ℝ × ℝ))) : runAlign o a input existing files s ≠ .error .missingFile := by
  intro h
  unfold runAlign at h
  split at h
  · cases h
  · rcases bind_error h with h1 | ⟨w1, -, h2⟩
    · exact alignGroups_missing _ _ h1
    · cases h2

end BTA.Align.Props
