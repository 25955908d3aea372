import Verif.Lemmas.LineFitError
import Verif.Spec.LineFitError
import Verif.Props.ChainBlurred
/-
C191: accuracy of the straight line fit.
-/
namespace BTA.Line.Props
open BTA.Geo BTA.Dut BTA.AlignTel BTA.Spec BTA.Line BTA.Line.Error BTA.Chain

theorem hitCount_eq (g : Config) (c : Cand) : hitCount g c = ((trackHits g c).length : ℝ) := by
  unfold hitCount
  rw [sumHits_eq g c fun _ => 1]
  simp

theorem sum_apply (ps : List Vec3) (i : Fin 3) : ps.sum i = (ps.map fun p => p i).sum := by
  induction ps with
  | nil => simp
  | cons p ps ih => simp [ih]

theorem meanZ_eq (g : Config) (c : Cand) : meanZ g c = centre (trackHits g c) 2 := by
  unfold meanZ centre
  rw [hitCount_eq, sumHits_eq g c fun p => p 2, Pi.smul_apply, smul_eq_mul, sum_apply]

theorem spreadZ_eq (g : Config) (c : Cand) : spreadZ g c = Real.sqrt ((trackHits g c).map fun p => (p 2 - centre (trackHits g c) 2) ^ 2).sum := by
  unfold spreadZ
  rw [sumHits_eq g c fun p => (p 2 - meanZ g c) ^ 2, meanZ_eq]

theorem onPlane_flat (a : Alignment) (h : FlatSensor a) (p : Vec3) (hp : OnPlane (pos a) (dutNormal a.alpha a.beta a.gamma) p) : p 2 = a.z := by
  obtain ⟨h0, h1, h2⟩ := BTA.Chain.Props.flat_normal a h
  have : dutNormal a.alpha a.beta a.gamma 0 * (p - pos a) 0 + dutNormal a.alpha a.beta a.gamma 1 * (p - pos a) 1 + dutNormal a.alpha a.beta a.gamma 2 * (p - pos a) 2 = 0 := hp
  rw [h0, h1, zero_mul, zero_mul, zero_add, zero_add] at this
  rcases mul_eq_zero.mp this with h | h
  · exact absurd h h2
  · have : p 2 - a.z = 0 := h
    linarith

/-- The fitted line is close to the line. -/
theorem fitted_near (g : Config) (hs : Svd g) (c : Cand) (p v : Vec3) (err : ℝ) (hm : Measured g c p v err) (u : Vec3)
    (hu : g.svd ((trackHits g c).map fun x => x - centre (trackHits g c)) = some u) :
    u 2 ≠ 0 ∧ ∀ s t : ℝ, (centre (trackHits g c) + s • u) 2 = (p + t • v) 2 →
      sideways (centre (trackHits g c) + s • u) (p + t • v) ≤ fitError g c v err ((p + t • v) 2) := by
  obtain ⟨h1, h2, ⟨d, hd, a, h, hh⟩, h4⟩ := hm
  have hne : trackHits g c ≠ [] := List.ne_nil_of_mem ((mem_trackHits g c _).mpr ⟨d, hd, a, h, hh, rfl⟩)
  rw [hitCount_eq, spreadZ_eq] at h4
  obtain ⟨k1, k2⟩ := line_error _ hne p v u h1 err (by
    intro q hq
    obtain ⟨b, hb, a', h', hh', rfl⟩ := (mem_trackHits g c q).mp hq
    exact h2 b hb a' h' hh') (hs _ _ hu) h4
  refine ⟨k1, fun s t hst => ?_⟩
  have := k2 s t hst
  unfold fitError
  rw [hitCount_eq, spreadZ_eq, meanZ_eq]
  exact this

/-- C191: the hits of the fit DUTs are measured within `err` of a straight line. Then the stored track is at most `fitError` beside this line on every DUT that is perpendicular to the z axis. -/
theorem C191_accuracy (g : Config) (hn : g.slices ≠ 0) (hs : Svd g) (cands : List Cand) (ts : List Track) (h : fitChunk g cands = .ok ts)
    (i : Nat) (c : Cand) (t : Track) (hc : cands[i]? = some c) (ht : ts[i]? = some t) (p v : Vec3) (err : ℝ) (hm : Measured g c p v err) (d : Nat) (a : Alignment) (e : Est)
    (ha : g.duts[d]? = some a) (hfl : FlatSensor a) (he : t.est d = some e) :
    e.pos 2 = 0 ∧ ∀ l : ℝ, (p + l • v) 2 = a.z → sideways (globalPoint a e) (p + l • v) ≤ fitError g c v err a.z := by
  obtain ⟨u, hu, hu1, q, hq, hg, hpos, -⟩ := stored_line g hn hs cands ts h i c t hc ht d a e ha he
  obtain ⟨k1, k2⟩ := fitted_near g hs c p v err hm u hu
  obtain ⟨-, ⟨s, hline⟩, hplane⟩ := (crossing_ok _ _ _).mp hq
  dsimp only at hline
  have hq2 := onPlane_flat a hfl q hplane
  refine ⟨?_, fun l hl => ?_⟩
  · rw [hpos]
    exact toLocal_z a q hplane
  · obtain ⟨s', hs'⟩ : ∃ s' : ℝ, q = centre (trackHits g c) + s' • u := by
      rcases orient_unit_smul u hu1 with ho | ho
      · exact ⟨s, by rw [hline, ho]⟩
      · exact ⟨-s, by rw [hline, ho, smul_neg, neg_smul]⟩
    rw [hg, ← hl, hs']
    apply k2
    rw [← hs', hq2, hl]

/-- Distances on a sensor perpendicular to the z axis. -/
theorem local_distance (a : Alignment) (hfl : FlatSensor a) (q q' : Vec3) (u w u' w' : ℝ) (h : AtLocal a q u w) (h' : AtLocal a q' u' w') :
    Real.sqrt ((u - u') ^ 2 + (w - w') ^ 2) = sideways q q' := by
  have e2 : q 2 = q' 2 := by rw [(hfl q).mp ⟨u, w, h⟩, (hfl q').mp ⟨u', w', h'⟩]
  rw [sideways_nrm q q' e2]
  unfold nrm
  have hs : q - q' = (rotationMatrix a.alpha a.beta a.gamma).mulVec (![u, w, 0] - ![u', w', 0]) := by
    rw [h, h', add_sub_add_right_eq_sub, Matrix.mulVec_sub]
  rw [hs, BTA.Props.dot_mulVec_orth _ (rotationMatrix_orth _ _ _)]
  congr 1
  simp only [dot_expand, Pi.sub_apply]
  simp
  ring

/-- C191: a hit measured within `err` of the line, used for the fit or not, is within `err + fitError` of the stored track. -/
theorem C191_residual (g : Config) (hn : g.slices ≠ 0) (hs : Svd g) (cands : List Cand) (ts : List Track) (h : fitChunk g cands = .ok ts)
    (i : Nat) (c : Cand) (t : Track) (hc : cands[i]? = some c) (ht : ts[i]? = some t) (p v : Vec3) (err : ℝ) (hm : Measured g c p v err) (d : Nat) (a : Alignment) (e : Est)
    (ha : g.duts[d]? = some a) (hfl : FlatSensor a) (he : t.est d = some e) (x : Hit) (hz : x.z = 0) (hx : Near p v err (placed a x)) :
    Real.sqrt ((x.x - e.pos 0) ^ 2 + (x.y - e.pos 1) ^ 2) ≤ err + fitError g c v err a.z := by
  obtain ⟨h0, h1⟩ := C191_accuracy g hn hs cands ts h i c t hc ht p v err hm d a e ha hfl he
  obtain ⟨l, hl, hd⟩ := hx
  have hat : AtLocal a (placed a x) x.x x.y := by
    unfold AtLocal placed
    rw [hz]
  have hate : AtLocal a (globalPoint a e) (e.pos 0) (e.pos 1) := by
    unfold AtLocal globalPoint
    congr 2
    ext i
    fin_cases i
    · rfl
    · rfl
    · exact h0
  have hp2 := (hfl _).mp ⟨_, _, hat⟩
  have he2 := (hfl _).mp ⟨_, _, hate⟩
  rw [local_distance a hfl _ _ _ _ _ _ hat hate, sideways_nrm _ _ (hp2.trans he2.symm)]
  have h2 := h1 l (hl.trans hp2)
  rw [sideways_nrm _ _ (he2.trans (hl.trans hp2).symm)] at h2
  rw [sideways_nrm _ _ hl.symm] at hd
  have : placed a x - globalPoint a e = (placed a x - (p + l • v)) - (globalPoint a e - (p + l • v)) := by abel
  rw [this]
  exact le_trans (nrm_sub_le _ _) (add_le_add hd h2)

/-- C191: the fit of such hits does not fail. -/
theorem C191_returns (g : Config) (hn : g.slices ≠ 0) (hs : Svd g) (cands : List Cand) (hfl : ∀ a ∈ g.duts, FlatSensor a)
    (hm : ∀ c ∈ cands, (∃ p v err, Measured g c p v err) ∧ ∀ d x, c d = some x → d < g.duts.length → x.z = 0) : ∃ ts, fitChunk g cands = .ok ts := by
  cases hfc : fitChunk g cands with
  | ok ts => exact ⟨ts, rfl⟩
  | error e =>
    exfalso
    rcases (C146_raises_iff g hn hs cands).mp ⟨e, hfc⟩ with ⟨d, -, hdl, c, hc, x, hx, hbad⟩ | ⟨a, ha, c, hc, w, hw, u, u', hpar⟩
    · rw [(hm c hc).2 d x hx hdl] at hbad
      norm_num at hbad
    · obtain ⟨p, v, err, hmm⟩ := (hm c hc).1
      obtain ⟨k1, -⟩ := fitted_near g hs c p v err hmm w hw
      apply k1
      have h0 : InPlane a ![a.x, a.y, a.z] := (hfl a ha _).mpr rfl
      have h1 := (hfl a ha _).mp ((BTA.Chain.Props.inPlane_add a _ w h0).mpr ⟨u, u', hpar⟩)
      simpa using h1

/-! ### An example: hits measured with errors of 0.1 -/

theorem example_measured (svd : List Vec3 → Option Vec3) : Measured (exampleConfig svd) exampleCand ![0.9, 2, 0] ![3.2, 0, 30] 0.1 ∧
    meanZ (exampleConfig svd) exampleCand = 15 ∧ hitCount (exampleConfig svd) exampleCand = 2 ∧ spreadZ (exampleConfig svd) exampleCand = Real.sqrt 2 * 15 := by
  have hp0 : placed ⟨0, 0, 0, 0, 0, 0⟩ ⟨1, 2, 0, 1, 1⟩ = ![1, 2, 0] := by
    unfold placed
    rw [rotation_none]
    simp
  have hp2 : placed ⟨0, 0, 30, 0, 0, 0⟩ ⟨4, 2, 0, 2, 2⟩ = ![4, 2, 30] := by
    unfold placed
    rw [rotation_none]
    simp
  have hsum : ∀ f : Nat → Alignment → Hit → ℝ, sumHits (exampleConfig svd) exampleCand f =
      f 0 ⟨0, 0, 0, 0, 0, 0⟩ ⟨1, 2, 0, 1, 1⟩ + f 2 ⟨0, 0, 30, 0, 0, 0⟩ ⟨4, 2, 0, 2, 2⟩ := by
    intro f
    unfold sumHits
    have : (exampleConfig svd).fitDuts.toFinset = {0, 2} := by simp [exampleConfig]
    rw [this, Finset.sum_pair (by decide)]
    rfl
  have hc : hitCount (exampleConfig svd) exampleCand = 2 := by
    unfold hitCount
    rw [hsum]
    norm_num
  have hmz : meanZ (exampleConfig svd) exampleCand = 15 := by
    unfold meanZ
    rw [hsum, hc, hp0, hp2]
    simp
    norm_num
  have hsp : spreadZ (exampleConfig svd) exampleCand = Real.sqrt 2 * 15 := by
    unfold spreadZ
    rw [hsum, hmz, hp0, hp2]
    have : (![(1 : ℝ), 2, 0] 2 - 15) ^ 2 + (![(4 : ℝ), 2, 30] 2 - 15) ^ 2 = 2 * 15 ^ 2 := by simp; norm_num
    rw [this, Real.sqrt_mul (by norm_num), Real.sqrt_sq (by norm_num)]
  refine ⟨⟨by simp, ?_, ⟨0, by simp [exampleConfig], _, _, rfl, rfl⟩, ?_⟩, hmz, hc, hsp⟩
  · intro d hd a x ⟨ha, hx⟩
    simp only [exampleConfig, List.mem_cons, List.not_mem_nil, or_false] at hd
    rcases hd with rfl | rfl
    · injection ha with ha
      injection hx with hx
      subst ha hx
      refine ⟨0, ?_, ?_⟩
      · rw [hp0]; simp
      · rw [hp0]
        unfold sideways
        refine Real.sqrt_le_iff.mpr ⟨by norm_num, ?_⟩
        simp
        norm_num
    · injection ha with ha
      injection hx with hx
      subst ha hx
      refine ⟨1, ?_, ?_⟩
      · rw [hp2]; simp
      · rw [hp2]
        unfold sideways
        refine Real.sqrt_le_iff.mpr ⟨by norm_num, ?_⟩
        simp
        norm_num
  · rw [hc, hsp]
    exact mul_lt_mul_of_pos_left (by norm_num) (Real.sqrt_pos.mpr (by norm_num))

/-- C191: at the second DUT (z = 10), the fitted track is within 0.2 of the true track. -/
example (svd : List Vec3 → Option Vec3) : fitError (exampleConfig svd) exampleCand ![3.2, 0, 30] 0.1 10 ≤ 0.2 := by
  obtain ⟨-, h1, h2, h3⟩ := example_measured svd
  unfold fitError
  rw [h1, h2, h3]
  have hs : Real.sqrt (dot ![3.2, 0, 30] ![3.2, 0, 30]) ≤ 31 := by
    refine Real.sqrt_le_iff.mpr ⟨by norm_num, ?_⟩
    simp only [dot_expand]
    simp
    norm_num
  have h2p : (0 : ℝ) < Real.sqrt 2 := Real.sqrt_pos.mpr (by norm_num)
  have e : Real.sqrt 2 * 0.1 * (1 + Real.sqrt (dot ![3.2, 0, 30] ![3.2, 0, 30]) / |(![3.2, 0, 30] : Vec3) 2|) / (Real.sqrt 2 * 15 - Real.sqrt 2 * 0.1) =
      0.1 * (1 + Real.sqrt (dot ![3.2, 0, 30] ![3.2, 0, 30]) / 30) / 14.9 := by
    have : |(![3.2, 0, 30] : Vec3) 2| = 30 := by simp
    rw [this, ← mul_sub, mul_assoc, mul_div_mul_left _ _ h2p.ne']
    norm_num
  rw [e]
  have : |(10 : ℝ) - 15| = 5 := by norm_num
  rw [this]
  generalize Real.sqrt (dot ![3.2, 0, 30] ![3.2, 0, 30]) = r at hs
  norm_num at hs ⊢
  linarith

end BTA.Line.Props
