import Verif.Lemmas.Transformation
import Mathlib.LinearAlgebra.Basis.VectorSpace
import Mathlib.Algebra.BigOperators.Fin

/-! Properties C54 (chunks and average), C76 (fixed parameters), C77 (aligned DUT), C78 (shifted DUT) of `calculate_transformation`. -/

namespace BTA.Transformation.Props
open BTA.Geo BTA.Dut BTA.Spec BTA.Transformation BTA.Transformation.Spec

/-! ### C54 -/

/-- C54: the search for the chunks ends after at most three steps; the chunks are consecutive parts of the table and cover it, none is
empty, each has at most `chunk_size` rows, their lengths differ by at most one. All chunks are used, in this order. -/
theorem C54_chunks (np : Numpy) (args : Args) (hcs : 0 < args.chunkSize) (params : List String) (d : DutConf) (table : List Row) :
    ∃ chunks : List (List Row), chunks.flatten = table ∧ (∀ c ∈ chunks, c ≠ [] ∧ c.length ≤ args.chunkSize) ∧
      (∀ c ∈ chunks, ∀ c' ∈ chunks, c.length ≤ c'.length + 1) ∧
      ∀ fuel, 3 ≤ fuel → dutTransformation np args fuel params d table =
        match chunkLoop np d args.useLimits params (args.maxIterations.getD 100) chunks none with
        | .error e => .error e
        | .ok avg => finish avg := by
  obtain ⟨h1, h2, h3⟩ := chunksOf_spec table args.chunkSize hcs
  exact ⟨_, h1, h2, h3, fun fuel hf => dut_eq np args fuel hf params d table hcs⟩

/-- C54: without rows an exception is raised. -/
theorem C54_no_rows (np : Numpy) (args : Args) (fuel : Nat) (hf : 3 ≤ fuel) (params : List String) (d : DutConf) :
    ∃ e, dutTransformation np args fuel params d [] = .error e := by
  cases h : dutTransformation np args fuel params d [] with
  | error e => exact ⟨e, rfl⟩
  | ok out => exact absurd rfl (dut_ok hf h).2.1

/-- C54: the stored position is the average of the results of the chunks, weighted with their numbers of tracks.

What is missing for the full statement: the rotation, which is not averaged (`C54_last_rotation`). -/
theorem C54_average_partial (np : Numpy) (args : Args) (fuel : Nat) (hf : 3 ≤ fuel) (params : List String) (d : DutConf)
    (table : List Row) (out : Alignment) (h : dutTransformation np args fuel params d table = .ok out) :
    ∃ (chunks : List (List Row)) (results : List ((Mat3 × Vec3) × Nat)), chunks.flatten = table ∧
      List.Forall₂ (fun c r => chunkResult np d args.useLimits params (args.maxIterations.getD 100) c = .ok r) chunks results ∧
      ((results.map Prod.snd).sum : ℝ) • position out = (results.map fun r => (r.2 : ℝ) • r.1.2).sum ∧
      (2 ≤ chunks.length → 0 < (results.map Prod.snd).sum) ∧
      (∀ r, results = [r] → position out = r.1.2) := by
  obtain ⟨hcs, hne, rs, a, h1, h2, h3, h4⟩ := dut_ok hf h
  refine ⟨_, rs, (chunksOf_spec table args.chunkSize hcs).1, h1, ?_, ?_, ?_⟩
  · rw [h3, ← h2.translation, h2.total]
  · intro hl; rw [h1.length_eq] at hl; rw [← h2.total]; exact h2.many hl
  · rintro r rfl
    obtain ⟨r', hr', he⟩ := h2.one rfl
    simp only [List.cons.injEq, and_true] at hr'
    rw [h3, he, hr']

/-- C54, negation: the stored angles are those of the last chunk; the other chunks have no influence on them. -/
theorem C54_last_rotation (np : Numpy) (args : Args) (fuel : Nat) (hf : 3 ≤ fuel) (params : List String) (d : DutConf)
    (table : List Row) (out : Alignment) (h : dutTransformation np args fuel params d table = .ok out) :
    ∃ (chunks : List (List Row)) (last : List Row) (r : (Mat3 × Vec3) × Nat), chunks.flatten = table ∧ chunks.getLast? = some last ∧
      chunkResult np d args.useLimits params (args.maxIterations.getD 100) last = .ok r ∧
      eulerAngles r.1.1 = .angles out.alpha out.beta out.gamma := by
  obtain ⟨hcs, hne, rs, a, h1, h2, h3, h4⟩ := dut_ok hf h
  obtain ⟨r, hr, he⟩ := h2.rotation
  obtain ⟨c, hc, hcr⟩ := forall₂_last h1 r hr
  exact ⟨_, c, r, (chunksOf_spec table args.chunkSize hcs).1, hc, hcr, by rw [← he]; exact h4⟩

/-- The rotation of a chunk whose hits are on their tracks. -/
theorem aligned_chunk {np : Numpy} (hsvd : SvdCorrect np) {d : DutConf} {ul : Bool} {params : List String} {it : Nat} {c : List Row}
    {r : (Mat3 × Vec3) × Nat} (hon : AllOnTrack d ul (position d.alignment) c) (h : chunkResult np d ul params it c = .ok r) :
    r.1 = startOf d.alignment := by
  obtain ⟨ts, hts, -, -, hi⟩ := chunkResult_ok h
  refine iterate_inv (fun x => x = startOf d.alignment) ?_ rfl hi
  rintro cur deltaT omega rfl ho
  have hz : omega = 0 := solve_aligned hts hon ho
  subst hz
  have h0 := restrict_rotation params (0 : Fin 6 → ℝ) rfl rfl rfl
  refine Prod.ext ?_ ?_
  · exact advance_rotation np hsvd _ (rotationMatrix_orth _ _ _) deltaT _ _ h0.1 h0.2.1 h0.2.2
  · ext j
    rw [advance_translation]
    have : (![(0 : Fin 6 → ℝ) 3, (0 : Fin 6 → ℝ) 4, (0 : Fin 6 → ℝ) 5] : Vec3) j = 0 := by fin_cases j <;> rfl
    rw [this, ite_self, mul_zero, add_zero]

theorem principal_angles (a : Alignment) (hp : Principal a) :
    eulerAngles (rotationMatrix a.alpha a.beta a.gamma) = .angles a.alpha a.beta a.gamma :=
  BTA.Props.C32_angles _ _ _ hp.1 hp.2.1 hp.2.2.1 hp.2.2.2

/-- C54, negation: if the hits of the last chunk are exactly on their tracks, the angles are not changed, however much the DUT is rotated
in all other chunks. -/
theorem C54_only_last_chunk (np : Numpy) (hsvd : SvdCorrect np) (args : Args) (fuel : Nat) (hf : 3 ≤ fuel) (params : List String)
    (d : DutConf) (hp : Principal d.alignment) (table : List Row) (out : Alignment)
    (hlast : ∀ last, (chunksOf table args.chunkSize).getLast? = some last → AllOnTrack d args.useLimits (position d.alignment) last)
    (h : dutTransformation np args fuel params d table = .ok out) :
    out.alpha = d.alignment.alpha ∧ out.beta = d.alignment.beta ∧ out.gamma = d.alignment.gamma := by
  obtain ⟨hcs, hne, rs, a, h1, h2, h3, h4⟩ := dut_ok hf h
  obtain ⟨r, hr, he⟩ := h2.rotation
  obtain ⟨c, hc, hcr⟩ := forall₂_last h1 r hr
  rw [he, aligned_chunk hsvd (hlast c hc) hcr] at h4
  have := principal_angles _ hp
  rw [show (startOf d.alignment).1 = rotationMatrix d.alignment.alpha d.alignment.beta d.alignment.gamma from rfl, this] at h4
  simp only [Euler.angles.injEq] at h4
  exact ⟨h4.1.symm, h4.2.1.symm, h4.2.2.symm⟩

/-! ### C76 -/

/-- C76: a translation parameter that is not selected is not changed. -/
theorem C76_fixed_translation (np : Numpy) (args : Args) (fuel : Nat) (hf : 3 ≤ fuel) (params : List String) (d : DutConf)
    (table : List Row) (out : Alignment) (h : dutTransformation np args fuel params d table = .ok out) (j : Fin 3)
    (hj : translationName j ∉ params) : position out j = position d.alignment j := by
  obtain ⟨hcs, hne, rs, a, h1, h2, h3, h4⟩ := dut_ok hf h
  rw [h3]
  have := averaged_close h2 j (position d.alignment j) 0 (by
    intro r hr
    obtain ⟨c, -, hc⟩ := forall₂_right h1 r hr
    obtain ⟨ts, -, -, -, hi⟩ := chunkResult_ok hc
    have : r.1.2 j = position d.alignment j := by
      refine iterate_inv (fun x => x.2 j = position d.alignment j) ?_ rfl hi
      intro cur deltaT omega hcur _
      rw [advance_translation, if_neg hj, mul_zero, add_zero, hcur]
    rw [this, sub_self, abs_zero])
  rw [abs_nonpos_iff, sub_eq_zero] at this
  exact this

/-- C76: if no rotation parameter is selected, the angles are not changed. -/
theorem C76_fixed_rotation (np : Numpy) (hsvd : SvdCorrect np) (args : Args) (fuel : Nat) (hf : 3 ≤ fuel) (params : List String)
    (d : DutConf) (hp : Principal d.alignment) (table : List Row) (out : Alignment)
    (h : dutTransformation np args fuel params d table = .ok out)
    (hr : ∀ n ∈ ["rotation_alpha", "rotation_beta", "rotation_gamma"], n ∉ params) :
    out.alpha = d.alignment.alpha ∧ out.beta = d.alignment.beta ∧ out.gamma = d.alignment.gamma := by
  obtain ⟨hcs, hne, rs, a, h1, h2, h3, h4⟩ := dut_ok hf h
  obtain ⟨r, hr', he⟩ := h2.rotation
  obtain ⟨c, hc, hcr⟩ := forall₂_last h1 r hr'
  obtain ⟨ts, -, -, -, hi⟩ := chunkResult_ok hcr
  have hrot : r.1.1 = rotationMatrix d.alignment.alpha d.alignment.beta d.alignment.gamma := by
    refine iterate_inv (fun x => x.1 = rotationMatrix d.alignment.alpha d.alignment.beta d.alignment.gamma) ?_ rfl hi
    intro cur deltaT omega hcur _
    rw [hcur]
    refine advance_rotation np hsvd _ (rotationMatrix_orth _ _ _) deltaT _ _ ?_ ?_ ?_
    · simp [restrict, hr "rotation_alpha" (by simp)]
    · simp [restrict, hr "rotation_beta" (by simp)]
    · simp [restrict, hr "rotation_gamma" (by simp)]
  rw [he, hrot, principal_angles _ hp] at h4
  simp only [Euler.angles.injEq] at h4
  exact ⟨h4.1.symm, h4.2.1.symm, h4.2.2.symm⟩

theorem dutLoop_other {np : Numpy} {args : Args} {fuel : Nat} {tables : Nat → List Row} {l : List (Nat × List String)}
    {conf conf' : Nat → DutConf} (h : dutLoop np args fuel tables l conf = .ok conf') :
    (∀ i, i ∉ l.map Prod.fst → conf' i = conf i) ∧
    (∀ i, (conf' i).xLimit = (conf i).xLimit ∧ (conf' i).yLimit = (conf i).yLimit) := by
  induction l generalizing conf with
  | nil => simp only [dutLoop, Except.ok.injEq] at h; subst h; simp
  | cons x l ih =>
    obtain ⟨i, ps⟩ := x
    rw [dutLoop] at h
    split at h
    · simp at h
    · next a ha =>
      obtain ⟨h1, h2⟩ := ih h
      refine ⟨?_, ?_⟩
      · intro k hk
        simp only [List.map_cons, List.mem_cons, not_or] at hk
        rw [h1 k hk.2, if_neg hk.1]
      · intro k
        rw [(h2 k).1, (h2 k).2]
        by_cases hk : k = i
        · subst hk; simp
        · simp [hk]

theorem selectParameters_length {n : Nat} {select : Option (List (Option (List String)))} {ps : List (List String)}
    (h : selectParameters n select = .ok ps) : ps.length = n ∧ ∀ p ∈ ps, ∀ x ∈ p, x ∈ defaultParameters := by
  unfold selectParameters at h
  dsimp only at h
  split at h
  · simp at h
  · next hl =>
    split at h
    · next hall =>
      simp only [Except.ok.injEq] at h
      subst h
      refine ⟨by simp only [List.length_map]; omega, ?_⟩
      intro p hp x hx
      obtain ⟨q, hq, rfl⟩ := List.mem_map.mp hp
      rw [List.all_eq_true] at hall
      have := hall q hq
      rw [List.all_eq_true] at this
      simpa using this x hx
    · simp at h

/-- C76: DUTs that are not selected keep their alignment, and no limits are changed. If there is an exception nothing is saved. -/
theorem C76_other_duts (np : Numpy) (args : Args) (fuel : Nat) (duts : List Nat) (select : Option (List (Option (List String))))
    (tables : Nat → List Row) (conf conf' : Nat → DutConf)
    (h : calculateTransformation np args fuel duts select tables conf = .ok conf') :
    (∀ i, i ∉ duts → conf' i = conf i) ∧
    (∀ i, (conf' i).xLimit = (conf i).xLimit ∧ (conf' i).yLimit = (conf i).yLimit) := by
  unfold calculateTransformation at h
  split at h
  · simp at h
  · next ps hps =>
    obtain ⟨h1, h2⟩ := dutLoop_other h
    refine ⟨fun i hi => h1 i fun hm => hi ?_, h2⟩
    obtain ⟨x, hx, rfl⟩ := List.mem_map.mp hm
    exact (List.of_mem_zip hx).1

/-- C76: a wrong number of parameter lists, or an unknown parameter, raises an exception before anything is calculated. -/
theorem C76_invalid (np : Numpy) (args : Args) (fuel : Nat) (duts : List Nat) (select : List (Option (List String)))
    (tables : Nat → List Row) (conf : Nat → DutConf)
    (h : select.length ≠ duts.length ∨ ∃ l, some l ∈ select ∧ ∃ n ∈ l, n ∉ allParameters) :
    calculateTransformation np args fuel duts (some select) tables conf =
      .error (if select.length ≠ duts.length then .wrongLength else .unknownParameter) := by
  unfold calculateTransformation selectParameters
  simp only [Option.getD_some]
  by_cases hl : select.length = duts.length
  · rw [if_neg (by omega), if_neg, if_neg (by simpa using hl)]
    obtain ⟨l, h1, n, h2, h3⟩ := h.resolve_left (by simpa using hl)
    rw [List.all_eq_true]
    intro hall
    have := hall (some l) h1
    rw [List.all_eq_true] at this
    have := this n h2
    simp at this
    exact h3 this
  · rw [if_pos (by omega), if_pos hl]

theorem dutLoop_each {np : Numpy} {args : Args} {fuel : Nat} {tables : Nat → List Row} {l : List (Nat × List String)}
    (hnd : (l.map Prod.fst).Nodup) {conf conf' : Nat → DutConf} (h : dutLoop np args fuel tables l conf = .ok conf') :
    ∀ x ∈ l, dutTransformation np args fuel x.2 (conf x.1) (tables x.1) = .ok (conf' x.1).alignment := by
  induction l generalizing conf with
  | nil => simp
  | cons x l ih =>
    obtain ⟨i, ps⟩ := x
    rw [List.map_cons, List.nodup_cons] at hnd
    rw [dutLoop] at h
    split at h
    · simp at h
    · next a ha =>
      have hi := (dutLoop_other h).1 i hnd.1
      intro x hx
      rcases List.mem_cons.mp hx with rfl | hx
      · rw [hi]; simpa using ha
      · have hne : x.1 ≠ i := by
          intro h0; exact hnd.1 (List.mem_map.mpr ⟨x, hx, h0⟩)
        have := ih hnd.2 h x hx
        rwa [if_neg hne] at this

/-- C76: each selected DUT gets the alignment calculated from its own table and its present alignment, with the parameters selected for
it (all six by default); the selected parameters are known ones. -/
theorem C76_each_dut (np : Numpy) (args : Args) (fuel : Nat) (duts : List Nat) (hnd : duts.Nodup)
    (select : Option (List (Option (List String)))) (tables : Nat → List Row) (conf conf' : Nat → DutConf)
    (h : calculateTransformation np args fuel duts select tables conf = .ok conf') (k : Nat) (i : Nat) (hi : duts[k]? = some i) :
    ∃ params : List String, dutTransformation np args fuel params (conf i) (tables i) = .ok (conf' i).alignment ∧
      (∀ x ∈ params, x ∈ allParameters) ∧ (select = none → params = allParameters) ∧
      (∀ l, select = some l → l[k]? = some (some params) ∨ (l[k]? = some none ∧ params = allParameters)) := by
  unfold calculateTransformation at h
  split at h
  · simp at h
  · next ps hps =>
    obtain ⟨hlen, hknown⟩ := selectParameters_length hps
    have hk : k < duts.length := (List.getElem?_eq_some_iff.mp hi).1
    obtain ⟨p, hp⟩ : ∃ p, ps[k]? = some p := ⟨ps[k]'(by omega), List.getElem?_eq_getElem _⟩
    have hz : (duts.zip ps)[k]? = some (i, p) := by
      rw [List.getElem?_zip_eq_some]; exact ⟨hi, hp⟩
    have hfst : (duts.zip ps).map Prod.fst = duts := by
      rw [List.map_fst_zip]; omega
    have := dutLoop_each (by rw [hfst]; exact hnd) h (i, p) (List.mem_of_getElem? hz)
    have hps' : ps = (select.getD (List.replicate duts.length (some defaultParameters))).map fun p => p.getD defaultParameters := by
      unfold selectParameters at hps
      dsimp only at hps
      split at hps
      · simp at hps
      · split at hps
        · simp only [Except.ok.injEq] at hps; exact hps.symm
        · simp at hps
    refine ⟨p, this, hknown p (List.mem_of_getElem? hp), ?_, ?_⟩
    · rintro rfl
      rw [hps'] at hp
      simp only [Option.getD_none, List.map_replicate, List.getElem?_replicate] at hp
      split at hp
      · exact (show p = defaultParameters by simpa using hp.symm)
      · exact absurd hk ‹_›
    · rintro l rfl
      rw [hps'] at hp
      simp only [Option.getD_some, List.getElem?_map, Option.map_eq_some_iff] at hp
      obtain ⟨q, hq, he⟩ := hp
      cases q with
      | none => exact .inr ⟨hq, show p = defaultParameters by simpa using he.symm⟩
      | some q => simp at he; subst he; exact .inl hq

/-! ### C77 -/

/-- C77: a DUT that is aligned stays aligned: if all hits are exactly on their tracks, a successful call changes nothing. -/
theorem C77_aligned (np : Numpy) (hsvd : SvdCorrect np) (args : Args) (fuel : Nat) (hf : 3 ≤ fuel) (params : List String)
    (d : DutConf) (hp : Principal d.alignment) (table : List Row) (hon : AllOnTrack d args.useLimits (position d.alignment) table)
    (out : Alignment) (h : dutTransformation np args fuel params d table = .ok out) : out = d.alignment := by
  obtain ⟨hcs, hne, rs, a, h1, h2, h3, h4⟩ := dut_ok hf h
  have hsub : ∀ c ∈ chunksOf table args.chunkSize, AllOnTrack d args.useLimits (position d.alignment) c := by
    intro c hc r hr
    refine hon r ?_
    rw [← (chunksOf_spec table args.chunkSize hcs).1]
    exact List.mem_flatten.mpr ⟨c, hc, hr⟩
  have hang := C54_only_last_chunk np hsvd args fuel hf params d hp table out
    (fun last hl => hsub last (List.mem_of_getLast? hl)) h
  have hpos : position out = position d.alignment := by
    rw [h3]
    ext j
    have := averaged_close h2 j (position d.alignment j) 0 (by
      intro r hr
      obtain ⟨c, hc, hcr⟩ := forall₂_right h1 r hr
      rw [aligned_chunk hsvd (hsub c hc) hcr]
      simp [startOf, position])
    rw [abs_nonpos_iff, sub_eq_zero] at this
    exact this
  have e0 := congrFun hpos 0
  have e1 := congrFun hpos 1
  have e2 := congrFun hpos 2
  simp [position] at e0 e1 e2
  cases out
  cases hda : d.alignment
  simp_all

/-! ### C78 -/

theorem chunkLoop_success {np : Numpy} {d : DutConf} {ul : Bool} {params : List String} {it : Nat} {cs : List (List Row)}
    (h : ∀ c ∈ cs, ∃ r, chunkResult np d ul params it c = .ok r ∧ 0 < r.2) (avg : Option Average) :
    ∃ out, chunkLoop np d ul params it cs avg = .ok out := by
  induction cs generalizing avg with
  | nil => exact ⟨avg, by rw [chunkLoop]⟩
  | cons c cs ih =>
    obtain ⟨r, hr, hpos⟩ := h c (by simp)
    obtain ⟨a, ha⟩ : ∃ a, addChunk avg r = .ok a := by
      cases avg with
      | none => exact ⟨_, rfl⟩
      | some a => exact ⟨_, by unfold addChunk; dsimp only; rw [if_neg (by omega)]⟩
    obtain ⟨out, ho⟩ := ih (fun c hc => h c (by simp [hc])) (some a)
    exact ⟨out, by rw [chunkLoop, hr]; dsimp only; rw [ha]; exact ho⟩

/-- C78: a DUT that is only shifted is put to its place. If all hits would be exactly on their tracks with the DUT at `pos`, and the
tracks of each chunk determine all parameters, the call succeeds, the angles are not changed, and every selected coordinate is correct
up to 2.4e-4 (micrometers), or at least 30 % of the remaining shift are removed in each iteration. -/
theorem C78_shift (np : Numpy) (hsvd : SvdCorrect np) (hpinv : PinvCorrect np) (args : Args) (hcs : 0 < args.chunkSize)
    (hit : args.maxIterations ≠ some 0) (fuel : Nat) (hf : 3 ≤ fuel) (params : List String) (d : DutConf) (hp : Principal d.alignment)
    (table : List Row) (hne : table ≠ []) (hz : OnSensor table) (pos : Vec3) (hon : AllOnTrack d args.useLimits pos table)
    (hr : ∀ c ∈ chunksOf table args.chunkSize, Rigid d args.useLimits c) :
    ∃ out, dutTransformation np args fuel params d table = .ok out ∧
      out.alpha = d.alignment.alpha ∧ out.beta = d.alignment.beta ∧ out.gamma = d.alignment.gamma ∧
      ∀ j : Fin 3,
        (translationName j ∈ params → |position out j - pos j| ≤
          max (7 / 3 * 1e-4) (0.7 ^ (args.maxIterations.getD 100) * |position d.alignment j - pos j|)) ∧
        (translationName j ∉ params → position out j = position d.alignment j) := by
  have hit' : args.maxIterations.getD 100 ≠ 0 := by
    cases hm : args.maxIterations with
    | none => simp
    | some k => simp; rintro rfl; exact hit hm
  obtain ⟨hfl, hspec, -⟩ := chunksOf_spec table args.chunkSize hcs
  have hmem : ∀ c ∈ chunksOf table args.chunkSize, ∀ r ∈ c, r ∈ table := by
    intro c hc r hr
    rw [← hfl]
    exact List.mem_flatten.mpr ⟨c, hc, hr⟩
  have hres : ∀ c ∈ chunksOf table args.chunkSize, ∃ r,
      chunkResult np d args.useLimits params (args.maxIterations.getD 100) c = .ok r ∧ 0 < r.2 ∧
      r.1.1 = rotationMatrix d.alignment.alpha d.alignment.beta d.alignment.gamma ∧
      ∀ j : Fin 3, (translationName j ∈ params → |r.1.2 j - pos j| ≤
          max (7 / 3 * 1e-4) (0.7 ^ (args.maxIterations.getD 100) * |position d.alignment j - pos j|)) := by
    intro c hc
    obtain ⟨ts, hts⟩ := tracksOf_exists (d := d) (ul := args.useLimits) (rows := c) fun r hr => hz r (hmem c hc r hr)
    have hs := solve_eq hpinv hts (fun r h => hon r (hmem c hc r h)) (hr c hc)
    obtain ⟨o, h1, h2, h3⟩ := iterate_shift (params := params) hs hsvd (rotationMatrix_orth _ _ _) (args.maxIterations.getD 100) 0 0.9
      (.inl rfl) (startOf d.alignment) (position d.alignment)
    refine ⟨(o, ts.length), ?_, ?_, h2, fun j => (h3 j).1⟩
    · unfold chunkResult
      rw [hts]
      dsimp only
      rw [if_neg hit', show startOf d.alignment = (rotationMatrix d.alignment.alpha d.alignment.beta d.alignment.gamma,
        position d.alignment) from rfl]
      rw [show startOf d.alignment = (rotationMatrix d.alignment.alpha d.alignment.beta d.alignment.gamma,
        position d.alignment) from rfl] at h1
      rw [h1]
    · rw [List.length_pos_iff]
      rintro rfl
      have := (hr c hc ![1, 0, 0] 0 (by
        intro r hrm h hu
        have := (tracksOf_ok hts (mkTrack d (h, r))).mpr ⟨r, hrm, h, hu, rfl⟩
        simp at this)).1
      have := congrFun this 0
      simp at this
  have hgood := chunkLoop_success (fun c hc => by obtain ⟨r, h1, h2, -⟩ := hres c hc; exact ⟨r, h1, h2⟩) none
  obtain ⟨avg, havg⟩ := hgood
  have hcne : chunksOf table args.chunkSize ≠ [] := by
    intro h0; rw [h0] at hfl; exact hne hfl.symm
  obtain ⟨rs, a, rfl, h1, h2⟩ := chunkLoop_none hcne havg
  have hrs : ∀ r ∈ rs, r.1.1 = rotationMatrix d.alignment.alpha d.alignment.beta d.alignment.gamma ∧
      ∀ j : Fin 3, (translationName j ∈ params → |r.1.2 j - pos j| ≤
          max (7 / 3 * 1e-4) (0.7 ^ (args.maxIterations.getD 100) * |position d.alignment j - pos j|)) := by
    intro r hr
    obtain ⟨c, hc, hcr⟩ := forall₂_right h1 r hr
    obtain ⟨r', e1, -, e3, e4⟩ := hres c hc
    rw [hcr] at e1
    simp only [Except.ok.injEq] at e1
    subst e1
    exact ⟨e3, e4⟩
  have hang : eulerAngles a.rotation = .angles d.alignment.alpha d.alignment.beta d.alignment.gamma := by
    obtain ⟨r, hr, he⟩ := h2.rotation
    rw [he, (hrs r (List.mem_of_getLast? hr)).1, principal_angles _ hp]
  have hok : dutTransformation np args fuel params d table =
      .ok ⟨a.translation 0, a.translation 1, a.translation 2, d.alignment.alpha, d.alignment.beta, d.alignment.gamma⟩ := by
    rw [dut_eq np args fuel hf params d table hcs, havg]
    simp only [finish, hang]
  refine ⟨_, hok, rfl, rfl, rfl, fun j => ⟨fun hj => ?_, fun hj => C76_fixed_translation np args fuel hf params d table _ hok j hj⟩⟩
  have := averaged_close h2 j (pos j) _ fun r hr => (hrs r hr).2 j hj
  have e : position ⟨a.translation 0, a.translation 1, a.translation 2, d.alignment.alpha, d.alignment.beta, d.alignment.gamma⟩ j =
      a.translation j := by fin_cases j <;> rfl
  rw [e]
  exact this

/-- C78 with the default settings: a shift of up to one meter is removed up to 2.4e-4 micrometers. -/
theorem C78_default (np : Numpy) (hsvd : SvdCorrect np) (hpinv : PinvCorrect np) (fuel : Nat) (hf : 3 ≤ fuel) (d : DutConf)
    (hp : Principal d.alignment) (table : List Row) (hlen : table.length ≤ 1000000) (hz : OnSensor table) (pos : Vec3)
    (hshift : ∀ j, |position d.alignment j - pos j| ≤ 10 ^ 6) (hon : AllOnTrack d true pos table) (hr : Rigid d true table) :
    ∃ out, dutTransformation np {} fuel allParameters d table = .ok out ∧
      out.alpha = d.alignment.alpha ∧ out.beta = d.alignment.beta ∧ out.gamma = d.alignment.gamma ∧
      ∀ j : Fin 3, |position out j - pos j| ≤ 2.4e-4 := by
  have hne : table ≠ [] := by
    rintro rfl
    have := congrFun (hr ![1, 0, 0] 0 (by simp)).1 0
    simp at this
  obtain ⟨out, h1, h2, h3, h4, h5⟩ := C78_shift np hsvd hpinv {} (by simp) (by simp) fuel hf defaultParameters d hp table hne hz pos hon
    (by rw [chunksOf_one table _ hne hlen]; simpa using hr)
  refine ⟨out, h1, h2, h3, h4, fun j => ?_⟩
  have hmem : translationName j ∈ defaultParameters := by fin_cases j <;> simp [translationName, defaultParameters]
  refine ((h5 j).1 hmem).trans (max_le (by norm_num) ?_)
  calc (0.7 : ℝ) ^ 100 * |position d.alignment j - pos j| ≤ 0.7 ^ 100 * 10 ^ 6 :=
        mul_le_mul_of_nonneg_left (hshift j) (by positivity)
    _ ≤ 2.4e-4 := by norm_num

/-! ### Cases -/

/-- A left inverse exists for independent columns. -/
theorem leftInverse_exists (rows : List (Fin 6 → ℝ)) (h : ∀ w, (∀ row ∈ rows, times row w = 0) → w = 0) :
    ∃ inv : List (Fin 6 → ℝ), ∀ w, (List.zipWith (fun (c : Fin 6 → ℝ) (v : ℝ) => v • c) inv (rows.map fun row => times row w)).sum = w := by
  let f : (Fin 6 → ℝ) →ₗ[ℝ] (Fin rows.length → ℝ) :=
    { toFun := fun w i => times rows[i] w
      map_add' := by intro a b; ext i; simp [times]; ring
      map_smul' := by intro c a; ext i; simp [times]; ring }
  have hk : LinearMap.ker f = ⊥ := by
    rw [LinearMap.ker_eq_bot']
    intro w hw
    refine h w fun row hr => ?_
    obtain ⟨i, hi, rfl⟩ := List.getElem_of_mem hr
    exact congrFun hw ⟨i, hi⟩
  obtain ⟨g, hg⟩ := f.exists_leftInverse_of_injective hk
  refine ⟨List.ofFn fun i => g (Pi.single i 1), fun w => ?_⟩
  have hz : List.zipWith (fun (c : Fin 6 → ℝ) (v : ℝ) => v • c) (List.ofFn fun i => g (Pi.single i 1)) (rows.map fun row => times row w) =
      List.ofFn fun i => f w i • g (Pi.single i 1) := by
    apply List.ext_getElem <;> simp [f]
  rw [hz, List.sum_ofFn]
  have : f w = ∑ i, f w i • (Pi.single i 1 : Fin rows.length → ℝ) := by
    ext k
    simp [Finset.sum_apply, Pi.single_apply]
  conv_rhs => rw [← LinearMap.id_apply (R := ℝ) w, ← hg, LinearMap.comp_apply, this, map_sum]
  simp

/-- Functions of numpy as required: for orthogonal matrices `M = M 1 1` is a singular value decomposition. -/
noncomputable def idealNumpy : Numpy := open Classical in
  { pinv := fun rows => if h : ∀ w, (∀ row ∈ rows, times row w = 0) → w = 0 then some (leftInverse_exists rows h).choose else none
    svd := fun M => (M, 1, 1) }

theorem idealNumpy_svd : SvdCorrect idealNumpy := by
  intro M hM
  refine ⟨hM, by simp [idealNumpy], by simp [idealNumpy], ?_⟩
  simp [idealNumpy]

theorem idealNumpy_pinv : PinvCorrect idealNumpy := by
  intro rows h
  exact ⟨_, by simp only [idealNumpy]; rw [dif_pos h], (leftInverse_exists rows h).choose_spec⟩

/-- A sensor at (p, q, 0) without rotation, with a limit in x. -/
noncomputable def caseDut (p q : ℝ) : DutConf := ⟨⟨p, q, 0, 0, 0, 0⟩, some (none, some 5000), none⟩

/-- A track with the local hit (x, y, 0), the true position of the sensor is the origin. -/
noncomputable def caseRow (p q x y : ℝ) (s : Vec3) : Row := ⟨some ![x, y, 0], true, ![x - p, y - q, 0], s⟩

/-- Two tracks along the beam, three tilted ones, and one outside of the limit. -/
noncomputable def caseTable (p q : ℝ) : List Row :=
  [caseRow p q 1 0 ![0, 0, 1], caseRow p q 0 1 ![0, 0, 1], caseRow p q 0 0 ![3 / 5, 0, 4 / 5], caseRow p q 1 0 ![3 / 5, 0, 4 / 5],
    caseRow p q 0 1 ![3 / 5, 0, 4 / 5], ⟨some ![6000, 0, 0], true, 0, 0⟩]

theorem caseDut_rotated (p q : ℝ) (v : Vec3) : rotated (caseDut p q).alignment v = v := by
  unfold rotated
  have : rotationMatrix (caseDut p q).alignment.alpha (caseDut p q).alignment.beta (caseDut p q).alignment.gamma = 1 := by
    ext i j
    fin_cases i <;> fin_cases j <;> simp [rotationMatrix, rotX, rotY, rotZ, caseDut, Matrix.mul_apply, Fin.sum_univ_three]
  rw [this, Matrix.one_mulVec]

theorem caseUses {p q x y : ℝ} {s h : Vec3} : Uses (caseDut p q) true (caseRow p q x y s) h → h = ![x, y, 0] := by
  rintro ⟨-, h2, -⟩
  simpa [caseRow] using h2.symm

theorem caseUses' {p q x y : ℝ} (s : Vec3) (hx : x ≤ 5000) : Uses (caseDut p q) true (caseRow p q x y s) ![x, y, 0] := by
  refine ⟨rfl, rfl, fun _ => ⟨?_, ?_⟩⟩
  · rintro l hl
    simp only [caseDut, Option.some.injEq] at hl
    subst hl
    simpa using hx
  · rintro l hl
    simp [caseDut] at hl

theorem caseOut {p q : ℝ} {h : Vec3} : ¬ Uses (caseDut p q) true ⟨some ![6000, 0, 0], true, 0, 0⟩ h := by
  rintro ⟨-, h2, h3⟩
  simp only [Option.some.injEq] at h2
  subst h2
  have := ((h3 rfl).1 _ rfl).2 5000 rfl
  norm_num at this

theorem case_principal (p q : ℝ) : Principal (caseDut p q).alignment := by
  have := Real.pi_pos
  refine ⟨?_, ?_, ?_, ?_⟩
  · simp [caseDut]; exact ⟨this, this.le⟩
  · simp [caseDut]; exact ⟨this, this.le⟩
  · simp [caseDut]; exact this
  · simp [caseDut]

theorem case_onSensor (p q : ℝ) : OnSensor (caseTable p q) := by
  intro r hr h hh
  simp only [caseTable, List.mem_cons, List.not_mem_nil, or_false] at hr
  rcases hr with rfl | rfl | rfl | rfl | rfl | rfl <;> simp only [caseRow, Option.some.injEq] at hh <;> subst hh <;> simp [caseRow]

theorem case_onTrack (p q : ℝ) : AllOnTrack (caseDut p q) true 0 (caseTable p q) := by
  intro r hr h hu
  simp only [caseTable, List.mem_cons, List.not_mem_nil, or_false] at hr
  rcases hr with rfl | rfl | rfl | rfl | rfl | rfl
  iterate 5
    · refine ⟨by simp [UnitVector, caseRow]; try norm_num, ?_⟩
      rw [caseUses hu]
      unfold HitOnTrack
      rw [caseDut_rotated, caseDut_rotated, caseDut_rotated]
      refine ⟨0, ?_⟩
      ext k
      fin_cases k <;> simp [caseRow, position, caseDut]
  · exact absurd hu caseOut

theorem case_rigid (p q : ℝ) : Rigid (caseDut p q) true (caseTable p q) := by
  intro w v h
  have key : ∀ (x y : ℝ) (s : Vec3), caseRow p q x y s ∈ caseTable p q → x ≤ 5000 → ∃ t : ℝ, cross w ![x, y, 0] + v = t • s := by
    intro x y s hm hx
    obtain ⟨t, ht⟩ := h _ hm _ (caseUses' s hx)
    rw [caseDut_rotated, caseDut_rotated] at ht
    exact ⟨t, ht⟩
  obtain ⟨a, ha⟩ := key 1 0 ![0, 0, 1] (by simp [caseTable]) (by norm_num)
  obtain ⟨b, hb⟩ := key 0 1 ![0, 0, 1] (by simp [caseTable]) (by norm_num)
  obtain ⟨c, hc⟩ := key 0 0 ![3 / 5, 0, 4 / 5] (by simp [caseTable]) (by norm_num)
  obtain ⟨e, he⟩ := key 1 0 ![3 / 5, 0, 4 / 5] (by simp [caseTable]) (by norm_num)
  obtain ⟨f, hf⟩ := key 0 1 ![3 / 5, 0, 4 / 5] (by simp [caseTable]) (by norm_num)
  have a0 := congrFun ha 0; have a1 := congrFun ha 1
  have b0 := congrFun hb 0; have b1 := congrFun hb 1
  have c0 := congrFun hc 0; have c2 := congrFun hc 2
  have e0 := congrFun he 0; have e2 := congrFun he 2
  have f0 := congrFun hf 0; have f2 := congrFun hf 2
  simp [cross] at a0 a1 b0 b1 c0 c2 e0 e2 f0 f2
  constructor
  · ext k; fin_cases k <;> simp <;> linarith
  · ext k; fin_cases k <;> simp <;> linarith

/-- C78 (and with it C54, C76): the sensor is moved from (1000, 2000, 0) to the origin, in spite of the last row. -/
example : ∃ out, dutTransformation idealNumpy {} 3 allParameters (caseDut 1000 2000) (caseTable 1000 2000) = .ok out ∧
    out.alpha = 0 ∧ out.beta = 0 ∧ out.gamma = 0 ∧ ∀ j : Fin 3, |position out j - 0| ≤ 2.4e-4 := by
  refine C78_default idealNumpy idealNumpy_svd idealNumpy_pinv 3 le_rfl (caseDut 1000 2000) (case_principal _ _) (caseTable 1000 2000) (by simp [caseTable])
    (case_onSensor _ _) 0 ?_ (case_onTrack _ _) (case_rigid _ _)
  intro j
  fin_cases j <;> simp [position, caseDut] <;> norm_num

/-- C76: only x is selected. -/
example : ∃ out, dutTransformation idealNumpy {} 3 ["translation_x"] (caseDut 1000 2000) (caseTable 1000 2000) = .ok out ∧
    out.y = 2000 ∧ out.z = 0 ∧ |out.x| ≤ 2.4e-4 := by
  obtain ⟨out, h1, -, -, -, h5⟩ := C78_shift idealNumpy idealNumpy_svd idealNumpy_pinv {} (by simp) (by simp) 3 le_rfl ["translation_x"]
    (caseDut 1000 2000) (case_principal _ _) (caseTable 1000 2000) (by simp [caseTable]) (case_onSensor _ _) 0 (case_onTrack _ _)
    (by rw [chunksOf_one (caseTable 1000 2000) _ (by simp [caseTable]) (by simp [caseTable])]; simpa using (case_rigid _ _))
  refine ⟨out, h1, ?_, ?_, ?_⟩
  · simpa [position, caseDut] using (h5 1).2 (by simp [translationName])
  · simpa [position, caseDut] using (h5 2).2 (by simp [translationName])
  · have := (h5 0).1 (by simp [translationName])
    simp only [position, Matrix.cons_val_zero, caseDut, Pi.zero_apply, sub_zero] at this
    refine this.trans (max_le (by norm_num) ?_)
    simp only [Option.getD_none]
    norm_num

/-- C77: a sensor that is at its place stays there. -/
example : dutTransformation idealNumpy {} 3 allParameters (caseDut 0 0) (caseTable 0 0) = .ok ⟨0, 0, 0, 0, 0, 0⟩ := by
  obtain ⟨out, h, -⟩ := C78_default idealNumpy idealNumpy_svd idealNumpy_pinv 3 le_rfl (caseDut 0 0) (case_principal _ _)
    (caseTable 0 0) (by simp [caseTable]) (case_onSensor _ _) 0 (by intro j; fin_cases j <;> simp [position, caseDut])
    (case_onTrack _ _) (case_rigid _ _)
  have hpos : position (caseDut 0 0).alignment = 0 := by ext j; fin_cases j <;> simp [position, caseDut]
  rw [h, C77_aligned idealNumpy idealNumpy_svd {} 3 le_rfl allParameters (caseDut 0 0) (case_principal _ _) (caseTable 0 0)
    (by rw [hpos]; exact case_onTrack _ _) out h]
  rfl

/-- C76: an unknown parameter, and a list too much. -/
example (tables : Nat → List Row) (conf : Nat → DutConf) :
    calculateTransformation idealNumpy {} 3 [0, 1] (some [none, some ["rotation_delta"]]) tables conf = .error .unknownParameter ∧
    calculateTransformation idealNumpy {} 3 [0] (some [none, none]) tables conf = .error .wrongLength := by
  constructor
  · rw [C76_invalid _ _ _ _ _ _ _ (.inr ⟨["rotation_delta"], by simp, "rotation_delta", by simp, by simp [allParameters]⟩)]
    simp
  · rw [C76_invalid _ _ _ _ _ _ _ (.inl (by simp))]
    simp

/-- C54: ten rows with at most four rows per chunk. -/
example (t : List Row) (h : t.length = 10) : (chunksOf t 4).map List.length = [3, 3, 4] := by
  have h1 : findSplit 10 4 3 (firstSplit 10 4) = some 3 := by decide +kernel
  have h2 : ranges 10 3 = [(0, 3), (3, 6), (6, 10)] := by decide +kernel
  unfold chunksOf
  rw [h, h1]
  simp [h2, readRows, h]

end BTA.Transformation.Props
