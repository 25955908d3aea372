import Verif.Spec.KalmanExact
import Verif.Props.KalmanFit
import Verif.Lemmas.AlignTelescope
/-
Exactness of the track fit with the Kalman filter, `_fit_tracks_kalman_loop` in beam_telescope_analysis/track_analysis.py: C216. Floating point
numbers are real numbers.
-/
namespace BTA.Props
open BTA.Geo BTA.Kalman BTA.Spec Matrix

/-- The reference states of hits on the seed line. -/
theorem references_straight (S : Setup) (fx : Fixer) (momentum beta : ℝ) (seed : State) (n : Nat) (h0 : S.x0 = 0)
    (hobs : ∀ d < n, ∀ m, S.obs d = some m → (S.H d).mulVec (extrapolate (S.planes 0) (S.planes d) seed) = m)
    (s : (Nat → State) × (Nat → ObsCov)) (hs : references S fx momentum beta seed (List.range n) = some s) :
    ∀ d < n, s.1 d = extrapolate (S.planes 0) (S.planes d) seed := by
  have hhead : (List.range n).headD 0 = 0 := by cases n <;> simp [List.range_succ_eq_map]
  have hmem : ∀ d i, (d, i) ∈ (List.range n).zipIdx ↔ d = i ∧ i < n := by
    intro d i
    rw [mem_zipIdx_iff]
    by_cases hi : i < n
    · simp [hi, eq_comm]
    · simp [hi]
  have ref1 : ∀ d < n, (refLoop1 S.planes momentum beta 0 seed (List.range n).zipIdx (fun _ => 0, fun _ => 0)).1 d =
      extrapolate (S.planes 0) (S.planes d) seed := by
    intro d hd
    rw [(refLoop1_spec S.planes momentum beta 0 seed (List.range n).zipIdx _ (by rw [zipIdx_fst]; exact List.nodup_range) d).1 d
      ((hmem d d).mpr ⟨rfl, hd⟩)]
    exact seedAt_eq _ _ _ _ _ id
  intro d hd
  unfold references at hs
  rw [hhead] at hs
  simp only [Option.map_eq_some_iff] at hs
  obtain ⟨b, hb, rfl⟩ := hs
  have hz := filterB_zero S fx _ _ _ h0 (fun e he m hm => by
    rw [ref1 e (by simpa using he)]; exact hobs e (by simpa using he) m hm) b hb
  rw [outAt_zero _ _ hz.2, add_zero, ref1 0 (by omega), extrapolate_self,
    (refLoop2_spec S.planes momentum beta 0 seed (List.range n).zipIdx _ (zipIdx_snd_nodup _) d).1 d ((hmem d d).mpr ⟨rfl, hd⟩)]
  exact seedAt_eq _ _ _ _ _ id

/-- The input without the hits that are not used. -/
def onlyUsed (S : Setup) : Setup := { S with obs := fun d => if S.fit d = true then S.obs d else none }

theorem onlyUsed_same (S : Setup) : SameForFit S (onlyUsed S) :=
  ⟨rfl, rfl, rfl, rfl, rfl, fun d hd => ⟨rfl, by simp [onlyUsed, hd]⟩⟩

theorem onlyUsed_regular (S : Setup) (h : Regular S) : Regular (onlyUsed S) :=
  ⟨h.initial, h.noise, fun d hd ho => h.used d hd (by
    have hd' : S.fit d = true := hd
    simpa [onlyUsed, hd'] using ho)⟩

/-- Planes in the order of their numbers, tilted in any way: if the hits used for the fit are on the seed line, the fit returns this line. -/
theorem smooth_line (S : Setup) (hS : Regular S) (fx : Fixer) (momentum beta : ℝ) (seed : State) (n : Nat) (h0 : S.x0 = 0)
    (hx : ∀ d < n, Crosses (S.planes d) (trackDir (S.planes 0) seed))
    (hobs : ∀ d < n, S.fit d = true → ∀ m, S.obs d = some m → (S.H d).mulVec (extrapolate (S.planes 0) (S.planes d) seed) = m) :
    ∃ l, smooth S fx momentum beta seed (List.range n) = some l ∧ l.map Prod.fst = List.range n ∧
      ∀ r ∈ l, r.2.x = extrapolate (S.planes 0) (S.planes r.1) seed ∧ (S.fit r.1 = true → r.2.chi2 = (S.obs r.1).map fun _ => 0) ∧ r.2.C.PosDef := by
  have hU := onlyUsed_regular S hS
  have hobsU : ∀ d < n, ∀ m, (onlyUsed S).obs d = some m →
      ((onlyUsed S).H d).mulVec (extrapolate ((onlyUsed S).planes 0) ((onlyUsed S).planes d) seed) = m := by
    intro d hd m hm
    simp only [onlyUsed] at hm ⊢
    split at hm
    · rename_i hf; exact hobs d hd hf m hm
    · cases hm
  have href : ∀ s, references S fx momentum beta seed (List.range n) = some s →
      ∀ d < n, s.1 d = extrapolate (S.planes 0) (S.planes d) seed := by
    intro s hs
    obtain ⟨s', hs', -⟩ := references_some (onlyUsed S) hU fx momentum beta seed (List.range n)
    rw [references_same S (onlyUsed S) (onlyUsed_same S) fx momentum beta seed _ s s' hs hs']
    exact references_straight (onlyUsed S) fx momentum beta seed n h0 hobsU s' hs'
  have hcr : ∀ p < n, ∀ d < n, Crosses (S.planes d) (trackDir (S.planes p) (extrapolate (S.planes 0) (S.planes p) seed)) := by
    intro p hp d hd
    obtain ⟨s, c, hc, -, h2⟩ := extrapolate_spec (S.planes 0) (S.planes p) seed (hx p hp)
    rw [h2, crosses_smul _ _ _ hc]
    exact hx d hd
  obtain ⟨l, hl, hl1, hpd⟩ := C43_fit S hS fx momentum beta seed (List.range n) (fun s hs p hp d hd => by
    rw [href s hs p (List.mem_range.mp hp)]; exact hcr p (List.mem_range.mp hp) d (List.mem_range.mp hd))
  obtain ⟨l', hl', -, -⟩ := C43_fit (onlyUsed S) hU fx momentum beta seed (List.range n) (fun s hs p hp d hd => by
    rw [references_straight (onlyUsed S) fx momentum beta seed n h0 hobsU s hs p (List.mem_range.mp hp)]
    exact hcr p (List.mem_range.mp hp) d (List.mem_range.mp hd))
  have hsame := smooth_same S (onlyUsed S) (onlyUsed_same S) fx momentum beta seed _ l l' hl hl'
  obtain ⟨-, hst⟩ := smooth_straight (onlyUsed S) fx momentum beta seed n h0 hobsU l' hl'
  refine ⟨l, hl, hl1, ?_⟩
  suffices hmain : ∀ r ∈ l, r.2.x = extrapolate (S.planes 0) (S.planes r.1) seed ∧ (S.fit r.1 = true → r.2.chi2 = (S.obs r.1).map fun _ => 0) from
    fun r hr => ⟨(hmain r hr).1, (hmain r hr).2, (hpd r hr).1⟩
  clear hl hl' hl1 hpd
  induction hsame with
  | nil => intro r hr; cases hr
  | @cons a b l l' hab _ ih =>
    intro r hr
    rcases List.mem_cons.mp hr with rfl | hr
    · obtain ⟨e1, e2, -, e4⟩ := hab
      obtain ⟨b1, b2⟩ := hst b (by simp)
      refine ⟨by rw [e2, b1, e1]; rfl, fun hf => ?_⟩
      rw [e4 hf, b2, e1]
      rw [e1] at hf
      simp [onlyUsed, hf]
    · exact ih (fun q hq => hst q (List.mem_cons_of_mem _ hq)) r hr

/-! ### From the line to the state -/

theorem onLine_congr (c d c' d' : Vec3) (s k : ℝ) (hk : k ≠ 0) (h1 : c' = c + s • d) (h2 : d' = k • d) (x : Vec3) :
    OnLine c' d' x ↔ OnLine c d x := by
  subst h1 h2
  constructor
  · rintro ⟨t, rfl⟩
    exact ⟨s + t * k, by rw [smul_smul, add_smul, add_assoc]⟩
  · rintro ⟨t, rfl⟩
    refine ⟨(t - s) / k, ?_⟩
    rw [smul_smul, div_mul_cancel₀ _ hk, sub_smul, add_assoc]
    simp

/-- Position of a hit on the line from the state that describes the line. -/
theorem hit_of_state (P : Plane) (p : State) (h : Hit) (c d : Vec3) (hp : Describes P p c d) (hh : HitOnLine P h c d) :
    obsMat.mulVec p = ![h.x, h.y] := by
  obtain ⟨t, ht⟩ := (hp _).mpr hh
  have h1 : dot (planeNormalOf P) (globalPoint P ![h.x, h.y, 0] - P.pos) = 0 :=
    trackPoint_onPlane P ![h.x, h.y, 0, 0]
  have h2 : dot (planeNormalOf P) (trackPoint P p - P.pos) = 0 := trackPoint_onPlane P p
  have h3 := crosses_self P p
  unfold Crosses at h3
  rw [ht] at h1
  rw [dot_eq] at h1 h2 h3
  rw [add_sub_right_comm, dotProduct_add, h2, dotProduct_smul, zero_add, smul_eq_mul] at h1
  have h0 : t = 0 := (mul_eq_zero.mp h1).resolve_right h3
  rw [h0, zero_smul, add_zero] at ht
  have := congrArg (fun v => P.rot.transpose.mulVec (v - P.pos)) ht
  simp only [trackPoint, globalPoint, add_sub_cancel_right, Matrix.mulVec_mulVec, rot_orth, Matrix.one_mulVec] at this
  have e0 := congrFun this 0
  have e1 := congrFun this 1
  simp at e0 e1
  ext i
  fin_cases i
  · simp [obsMat, mulVec, dotProduct, Fin.sum_univ_succ, e0]
  · simp [obsMat, mulVec, dotProduct, Fin.sum_univ_succ, e1]

theorem onPlane_normal (P : Plane) (q : Vec3) (h : OnPlane ![P.pos 0, P.pos 1, P.pos 2] (dutNormal P.alpha P.beta P.gamma) q) :
    OnPlane P.pos (planeNormalOf P) q := by
  have e : planeNormalOf P = fun i => rotationMatrix P.alpha P.beta P.gamma i 2 := by
    unfold planeNormalOf Plane.rot
    ext i; simp [mulVec, dotProduct, Fin.sum_univ_succ]
  rw [vec3_eta] at h
  unfold OnPlane at h ⊢
  rw [e]
  rcases dutNormal_eq P.alpha P.beta P.gamma with h1 | h1
  · rw [h1] at h; exact h
  · rw [h1] at h; unfold Geo.dot at h ⊢
    simp only [Pi.neg_apply] at h
    linarith

/-- The intersection of a line with a plane. -/
theorem intersect_line (P : Plane) (o d : Vec3) (q : List Vec3)
    (h : intersectDut [(o, d)] (P.pos 0) (P.pos 1) (P.pos 2) P.alpha P.beta P.gamma = some q) :
    OnLine o d (q.headD 0) ∧ OnPlane P.pos (planeNormalOf P) (q.headD 0) := by
  unfold intersectDut at h
  obtain ⟨hlen, hi⟩ := C33_intersection _ _ _ _ h
  match q, hlen with
  | [x], _ =>
    obtain ⟨h1, h2, -⟩ := hi 0 (o, d) x rfl rfl
    exact ⟨h1, onPlane_normal P x h2⟩

/-- The state calculated from a line describes it. -/
theorem state_of_line (P : Plane) (o d q : Vec3) (h1 : OnLine o d q) (h2 : OnPlane P.pos (planeNormalOf P) q) (hd : Crosses P d) (s : Vec3)
    (hs : s = P.rot.transpose.mulVec d ∨ s = -P.rot.transpose.mulVec d) :
    Describes P ![(P.rot.transpose.mulVec (q - P.pos)) 0, (P.rot.transpose.mulVec (q - P.pos)) 1, s 0 / s 2, s 1 / s 2] o d := by
  have hz : ∀ v : Vec3, (P.rot.transpose.mulVec v) 2 = dot (planeNormalOf P) v := by
    intro v
    simp [planeNormalOf, Geo.dot, mulVec, dotProduct, Fin.sum_univ_succ, Matrix.transpose_apply]; ring
  have hback : ∀ v : Vec3, P.rot.mulVec (P.rot.transpose.mulVec v) = v := by
    intro v; rw [mulVec_mulVec, rot_orth', one_mulVec]
  have hp : trackPoint P ![(P.rot.transpose.mulVec (q - P.pos)) 0, (P.rot.transpose.mulVec (q - P.pos)) 1, s 0 / s 2, s 1 / s 2] = q := by
    have e : (![(P.rot.transpose.mulVec (q - P.pos)) 0, (P.rot.transpose.mulVec (q - P.pos)) 1, 0] : Vec3) =
        P.rot.transpose.mulVec (q - P.pos) := by
      conv_rhs => rw [← vec3_eta (P.rot.transpose.mulVec (q - P.pos))]
      rw [hz (q - P.pos), show dot (planeNormalOf P) (q - P.pos) = 0 from h2]
    show P.rot.mulVec ![(P.rot.transpose.mulVec (q - P.pos)) 0, (P.rot.transpose.mulVec (q - P.pos)) 1, 0] + P.pos = q
    rw [e, hback]; simp
  have hs0 : ∃ k : ℝ, k ≠ 0 ∧ s = k • P.rot.transpose.mulVec d := by
    rcases hs with h | h
    · exact ⟨1, one_ne_zero, by rw [h, one_smul]⟩
    · exact ⟨-1, by norm_num, by rw [h]; ext i; simp⟩
  obtain ⟨k, hk, hs⟩ := hs0
  have hs2 : s 2 = k * dot (planeNormalOf P) d := by rw [hs, Pi.smul_apply, hz, smul_eq_mul]
  have hd' : dot (planeNormalOf P) d ≠ 0 := hd
  have hs2n : s 2 ≠ 0 := by rw [hs2]; exact mul_ne_zero hk hd'
  have hdir : trackDir P ![(P.rot.transpose.mulVec (q - P.pos)) 0, (P.rot.transpose.mulVec (q - P.pos)) 1, s 0 / s 2, s 1 / s 2] =
      ((s 2)⁻¹ * k) • d := by
    have e : (![s 0 / s 2, s 1 / s 2, 1] : Vec3) = ((s 2)⁻¹ * k) • P.rot.transpose.mulVec d := by
      rw [mul_smul, ← hs]
      ext i
      fin_cases i
      · simp; rw [div_eq_inv_mul]
      · simp; rw [div_eq_inv_mul]
      · simp [hs2n]
    show P.rot.mulVec ![s 0 / s 2, s 1 / s 2, 1] = _
    rw [e, mulVec_smul, hback]
  obtain ⟨t, ht⟩ := h1
  intro x
  unfold OnTrack
  exact onLine_congr o d _ _ t _ (mul_ne_zero (inv_ne_zero hs2n) hk) (by rw [hp, ht]) hdir x

theorem points_line (c d : Vec3) : ∀ ps : List Vec3, (∀ p ∈ ps, OnLine c d p) → ∃ ts : List ℝ, ps = ts.map fun t => c + t • d
  | [], _ => ⟨[], rfl⟩
  | p :: ps, h => by
    obtain ⟨ts, e⟩ := points_line c d ps fun q hq => h q (List.mem_cons_of_mem _ hq)
    obtain ⟨t, ht⟩ := h p (by simp)
    exact ⟨t :: ts, by rw [List.map_cons, ← ht, ← e]⟩

/-- The seed of hits on a line describes the line. -/
theorem trackSeed_line (svd : List Vec3 → Vec3) (hsvd : ∀ rows, AlignTel.IsFirstSingular rows (svd rows)) (plane : Nat → Plane)
    (first : Plane) (fitDuts : List Nat) (hits : Nat → Option Hit) (c d : Vec3) (hd : d ≠ 0) (hx : Crosses first d)
    (hl : ∀ k ∈ fitDuts, ∀ h, hits k = some h → HitOnLine (plane k) h c d)
    (htwo : ∃ j ∈ fitDuts, ∃ k ∈ fitDuts, ∃ h h', hits j = some h ∧ hits k = some h' ∧
      globalPoint (plane j) ![h.x, h.y, 0] ≠ globalPoint (plane k) ![h'.x, h'.y, 0]) :
    ∃ seed, trackSeed (AlignTel.lineFit svd) plane first fitDuts hits = some seed ∧ Describes first seed c d := by
  set ps := fitDuts.filterMap fun d => (hits d).map fun h => (plane d).rot.mulVec ![h.x, h.y, 0] + (plane d).pos with hps
  obtain ⟨ts, hts⟩ := points_line c d ps (fun p hp => by
    rw [hps, List.mem_filterMap] at hp
    obtain ⟨k, hk, e⟩ := hp
    rw [Option.map_eq_some_iff] at e
    obtain ⟨h, hh, rfl⟩ := e
    exact hl k hk h hh)
  obtain ⟨j, hj, k, hk, h, h', e1, e2, hne⟩ := htwo
  have m1 : globalPoint (plane j) ![h.x, h.y, 0] ∈ ps := by
    rw [hps, List.mem_filterMap]; exact ⟨j, hj, by rw [e1]; rfl⟩
  have m2 : globalPoint (plane k) ![h'.x, h'.y, 0] ∈ ps := by
    rw [hps, List.mem_filterMap]; exact ⟨k, hk, by rw [e2]; rfl⟩
  rw [hts, List.mem_map] at m1 m2
  obtain ⟨s, hs, es⟩ := m1
  obtain ⟨t, ht, et⟩ := m2
  obtain ⟨a, b, ha, hfit⟩ := AlignTel.lineFit_line svd hsvd ts c d s t hs ht (fun h0 => hne (by rw [← es, ← et, h0])) hd
  rw [← hts] at hfit
  unfold trackSeed
  rw [← hps]
  simp only [hfit]
  have hxa : Crosses first (a • d) := (crosses_smul first d a ha).mpr hx
  obtain ⟨q, hq⟩ := intersect_some first (c + b • d) (a • d) hxa
  rw [hq]
  obtain ⟨q1, q2⟩ := intersect_line first _ _ q hq
  refine ⟨_, rfl, fun x => ?_⟩
  rw [← onLine_congr c d (c + b • d) (a • d) b a ha rfl rfl x]
  refine state_of_line first _ _ _ q1 q2 hxa _ ?_ x
  split
  · exact .inr rfl
  · exact .inl rfl

/-! ### Order of the planes -/

theorem zIntersections_get : ∀ (l : List Plane) (z : List ℝ), zIntersections l = some z → z.length = l.length ∧
    ∀ (i : Nat) (x : ℝ), z[i]? = some x → ∃ P, l[i]? = some P ∧ OnPlane P.pos (planeNormalOf P) ![0, 0, x]
  | [], z, h => by
    simp only [zIntersections, Option.some.injEq] at h
    subst h
    exact ⟨rfl, fun i x hx => by simp at hx⟩
  | P :: l, z, h => by
    simp only [zIntersections, Option.bind_eq_some_iff, Option.map_eq_some_iff] at h
    obtain ⟨a, ha, y, hy, rfl⟩ := h
    obtain ⟨h1, h2⟩ := zIntersections_get l y hy
    refine ⟨by simp [h1], fun i x hx => ?_⟩
    cases i with
    | succ i => exact h2 i x (by simpa using hx)
    | zero =>
      simp at hx
      subst hx
      refine ⟨P, rfl, ?_⟩
      unfold zIntersection at ha
      rw [Option.map_eq_some_iff] at ha
      obtain ⟨q, hq, rfl⟩ := ha
      obtain ⟨⟨t, ht⟩, h4⟩ := intersect_line P _ _ q hq
      have e : (![0, 0, (q.headD 0) 2] : Vec3) = q.headD 0 := by
        rw [ht]; ext i; fin_cases i <;> simp
      rw [e]; exact h4

theorem order_range (planes : List Plane) (hb : InBeamOrder planes) (z : List ℝ) (hz : zIntersections planes = some z) (o : List Nat)
    (ho : SortsIndices z o) : o = List.range planes.length := by
  obtain ⟨hlen, hg⟩ := zIntersections_get planes z hz
  obtain ⟨hp, hs⟩ := ho
  rw [hlen] at hp
  refine hp.eq_of_pairwise (le := (· ≤ ·)) (fun a b _ _ h1 h2 => Nat.le_antisymm h1 h2) ?_ (List.pairwise_le_range)
  refine List.Pairwise.imp_of_mem (fun {i j} hi hj h => ?_) hs
  by_contra hcon
  have li : i < z.length := hlen ▸ List.mem_range.mp (hp.subset hi)
  have lj : j < z.length := hlen ▸ List.mem_range.mp (hp.subset hj)
  obtain ⟨P, hP, p1⟩ := hg i _ (List.getElem?_eq_getElem li)
  obtain ⟨Q, hQ, q1⟩ := hg j _ (List.getElem?_eq_getElem lj)
  have := hb j i Q P _ _ (by omega) hQ hP q1 p1
  exact absurd (h _ _ (List.getElem?_eq_getElem li) (List.getElem?_eq_getElem lj)) (not_le.mpr this)

/-! ### C216 -/

theorem setupOf_regular (telescope scattering : List Plane) (alpha : List ℝ) (trackHits : List (Option Hit)) (fitDuts : List Nat)
    (hpos : ∀ a ∈ alpha, 0 < a)
    (herr : ∀ d P hit, d ∈ fitDuts → (telescope ++ scattering)[d]? = some P → trackHits[d]? = some (some hit) → HasError P hit)
    (hfit : ∀ d ∈ fitDuts, d < telescope.length) (V : List ObsCov)
    (hV : obsCovs alpha (fun d => trackHits.getD d none) 0 (telescope ++ scattering) = some V) :
    Regular (setupOf telescope scattering V trackHits fitDuts) := by
  obtain ⟨hV1, hV2⟩ := obsCovs_some _ _ _ _ _ hV
  refine ⟨initialCov_pd, fun d => ?_, fun d hd ho => ?_⟩
  · simp only [setupOf]
    by_cases hlt : d < (telescope ++ scattering).length
    · obtain ⟨a, ha, e⟩ := hV2 d _ (List.getElem?_eq_getElem hlt)
      rw [e]; exact obsCov_psd _ _ _ (hpos a (List.mem_of_getElem? ha))
    · rw [List.getD_eq_getElem?_getD, List.getElem?_eq_none (by rw [hV1]; omega)]; exact Matrix.PosSemidef.zero
  · have hm : d ∈ fitDuts := by simpa [setupOf] using hd
    have hlt : d < (telescope ++ scattering).length := by rw [List.length_append]; have := hfit d hm; omega
    obtain ⟨a, ha, e⟩ := hV2 d _ (List.getElem?_eq_getElem hlt)
    simp only [setupOf, Option.isSome_map] at ho ⊢
    obtain ⟨hit, hhit⟩ := Option.isSome_iff_exists.mp ho
    rw [e, Nat.zero_add, hhit]
    refine obsCov_pd _ _ _ (hpos a (List.mem_of_getElem? ha)) (herr d _ hit hm (List.getElem?_eq_getElem hlt) ?_)
    rw [List.getD_eq_getElem?_getD] at hhit
    cases ht : trackHits[d]? with
    | none => rw [ht] at hhit; cases hhit
    | some o => rw [ht] at hhit; simp at hhit; rw [hhit]

theorem describes_extrapolate (A B : Plane) (p : State) (c d : Vec3) (h : Describes A p c d) (hx : Crosses B (trackDir A p)) :
    Describes B (extrapolate A B p) c d := fun x => (C41_same_line A B p hx x).trans (h x)

theorem crosses_of_describes (A B : Plane) (p : State) (c d : Vec3) (h : Describes A p c d) (hd : Crosses B d) :
    Crosses B (trackDir A p) := by
  obtain ⟨s, hs⟩ := (h (trackPoint A p)).mp ⟨0, by simp⟩
  obtain ⟨t, ht⟩ := (h (trackPoint A p + trackDir A p)).mp ⟨1, by simp⟩
  have e : trackDir A p = (t - s) • d := by
    rw [hs] at ht
    have := sub_eq_iff_eq_add'.mpr ht
    rw [← sub_eq_zero] at ht ⊢
    rw [← ht, sub_smul]; abel
  have hne : t - s ≠ 0 := by
    intro h0
    rw [h0, zero_smul] at e
    have := crosses_self A p
    rw [e] at this
    exact this (by simp [Geo.dot])
  rw [e]; exact (crosses_smul B d _ hne).mpr hd

/-- C216: hits exactly on a straight line. The planes are tilted in any way but none is parallel to the line or to the z axis, and numbered
in the order of the beam; all have material, the hits used for the fit have errors. Then the fit with the Kalman filter succeeds and returns
exactly this line at every DUT with positive definite covariance matrices, with chi-square 0. Hits in the other DUTs can be anywhere. -/
theorem C216_exact (fx : Fixer) (argsort : List ℝ → List Nat) (svd : List Vec3 → Vec3)
    (telescope scattering : List Plane) (alpha : List ℝ) (trackHits : List (Option Hit)) (fitDuts : List Nat) (energy mass : ℝ)
    (origin direction : Vec3)
    (hsort : ∀ z, SortsIndices z (argsort z)) (hsvd : ∀ rows, AlignTel.IsFirstSingular rows (svd rows))
    (horder : InBeamOrder (telescope ++ scattering))
    (hbeam : ∀ P ∈ telescope ++ scattering, Crosses P ![0, 0, 1]) (hline : ∀ P ∈ telescope ++ scattering, Crosses P direction)
    (hmat : ∀ P ∈ telescope ++ scattering, 1e-8 < P.budget)
    (halpha : telescope.length + scattering.length ≤ alpha.length) (hpos : ∀ a ∈ alpha, 0 < a)
    (herr : ∀ d P hit, d ∈ fitDuts → (telescope ++ scattering)[d]? = some P → trackHits[d]? = some (some hit) → HasError P hit)
    (hfit : ∀ d ∈ fitDuts, d < telescope.length)
    (hhits : ∀ d P hit, d ∈ fitDuts → telescope[d]? = some P → trackHits[d]? = some (some hit) → HitOnLine P hit origin direction)
    (htwo : ∃ d ∈ fitDuts, ∃ e ∈ fitDuts, ∃ P Q h h', telescope[d]? = some P ∧ telescope[e]? = some Q ∧ trackHits[d]? = some (some h) ∧
      trackHits[e]? = some (some h') ∧ globalPoint P ![h.x, h.y, 0] ≠ globalPoint Q ![h'.x, h'.y, 0]) :
    ∃ f, fitKalman fx argsort (AlignTel.lineFit svd) telescope scattering alpha trackHits fitDuts energy mass = .ok f ∧
      f.planes.map Prod.fst = List.range telescope.length ∧
      (∀ r ∈ f.planes, (∃ P, telescope[r.1]? = some P ∧ Describes P r.2.x origin direction) ∧ r.2.C.PosDef) ∧
      f.chi2 = 0 ∧ f.dof = 2 * (fitDuts.countP fun d => (trackHits.getD d none).isSome) - 4 := by
  obtain ⟨z, hz, hlen⟩ := zIntersections_some _ hbeam
  have ho := order_range _ horder z hz (argsort z) (hsort z)
  have hplane : ∀ d < (telescope ++ scattering).length, ∃ P, (telescope ++ scattering)[d]? = some P ∧ P ∈ telescope ++ scattering ∧
      planeOf telescope scattering d = P := by
    intro d hlt
    exact ⟨_, List.getElem?_eq_getElem hlt, List.getElem_mem hlt, by
      unfold planeOf; rw [List.getD_eq_getElem?_getD, List.getElem?_eq_getElem hlt]; rfl⟩
  have htel : ∀ (d : Nat) (P : Plane), telescope[d]? = some P → planeOf telescope scattering d = P := by
    intro d P hP
    have hlt := (List.getElem?_eq_some_iff.mp hP).1
    unfold planeOf
    rw [List.getD_eq_getElem?_getD, List.getElem?_append_left hlt, hP]; rfl
  obtain ⟨j, hj, k, hk, P, Q, h, h', eP, eQ, eh, eh', hne⟩ := htwo
  have hn : 0 < (telescope ++ scattering).length := by rw [List.length_append]; have := hfit j hj; omega
  have hmz : ¬ ∃ d ∈ (argsort z).dropLast, |(planeOf telescope scattering d).budget| ≤ 1e-8 := by
    rintro ⟨d, hd, h⟩
    have hd' := List.dropLast_sublist _ |>.subset hd
    rw [ho] at hd'
    obtain ⟨P, -, hP, e⟩ := hplane d (List.mem_range.mp hd')
    rw [e] at h
    have := hmat P hP
    have := le_abs_self P.budget
    linarith
  obtain ⟨V, hV⟩ : ∃ V, obsCovs alpha (fun d => trackHits.getD d none) 0 (telescope ++ scattering) = some V := by
    rw [← Option.ne_none_iff_exists', Ne, obsCovs_none_iff _ _ _ _ (Nat.zero_le _), List.length_append]
    omega
  have hreg := setupOf_regular telescope scattering alpha trackHits fitDuts hpos herr hfit V hV
  obtain ⟨P0, -, hP0, e0⟩ := hplane 0 hn
  have hhead : (argsort z).headD 0 = 0 := by
    rw [ho]; cases (telescope ++ scattering).length <;> simp [List.range_succ_eq_map]
  have hdir : direction ≠ 0 := by
    rintro rfl
    exact hline P0 hP0 (by simp [Geo.dot])
  have hgetD : ∀ (d : Nat) (hit : Hit), trackHits.getD d none = some hit ↔ trackHits[d]? = some (some hit) := by
    intro d hit
    rw [List.getD_eq_getElem?_getD]
    cases trackHits[d]? <;> simp
  obtain ⟨seed, hs, hdesc⟩ := trackSeed_line svd hsvd (planeOf telescope scattering) (planeOf telescope scattering 0) fitDuts
    (fun d => trackHits.getD d none) origin direction hdir (by rw [e0]; exact hline P0 hP0)
    (fun d hd hit hh => by
      have hlt := hfit d hd
      rw [htel d _ (List.getElem?_eq_getElem hlt)]
      exact hhits d _ hit hd (List.getElem?_eq_getElem hlt) ((hgetD d hit).mp hh))
    ⟨j, hj, k, hk, h, h', (hgetD j h).mpr eh, (hgetD k h').mpr eh', by rw [htel j P eP, htel k Q eQ]; exact hne⟩
  have hcr : ∀ d < (telescope ++ scattering).length, Crosses (planeOf telescope scattering d) (trackDir (planeOf telescope scattering 0) seed) := by
    intro d hd
    obtain ⟨P, -, hP, e⟩ := hplane d hd
    rw [e]
    exact crosses_of_describes _ P seed origin direction hdesc (hline P hP)
  obtain ⟨l, hl, hl1, hl2⟩ := smooth_line (setupOf telescope scattering V trackHits fitDuts) hreg fx (Real.sqrt (energy ^ 2 - mass ^ 2))
    (Real.sqrt (energy ^ 2 - mass ^ 2) / energy) seed (telescope ++ scattering).length rfl hcr (by
      intro d hd hf m hm
      have hmem : d ∈ fitDuts := by simpa [setupOf] using hf
      have hlt := hfit d hmem
      simp only [setupOf, Option.map_eq_some_iff] at hm ⊢
      obtain ⟨hit, hh, rfl⟩ := hm
      refine hit_of_state _ _ hit origin direction (describes_extrapolate _ _ seed origin direction hdesc (hcr d hd)) ?_
      rw [htel d _ (List.getElem?_eq_getElem hlt)]
      exact hhits d _ hit hmem (List.getElem?_eq_getElem hlt) ((hgetD d hit).mp hh))
  have hok : fitKalman fx argsort (AlignTel.lineFit svd) telescope scattering alpha trackHits fitDuts energy mass =
      .ok ⟨l.filter fun o => o.1 < telescope.length, (summary fitDuts l).1, (summary fitDuts l).2⟩ := by
    unfold fitKalman
    simp only []
    rw [hz]
    simp only []
    have e : planeOf telescope scattering = fun d => (telescope ++ scattering).getD d ⟨0, 0, 0, 0, 0, none⟩ := rfl
    simp only [setupOf, e] at hs hl hmz
    rw [if_neg hmz, hV]
    simp only [hhead, hs]
    rw [ho, hl]
  refine ⟨_, hok, ?_, ?_, ?_, (C70_result fx argsort _ telescope scattering alpha trackHits fitDuts energy mass (fun z => (hsort z).1) hfit _ hok).2.2.2⟩
  · simp only
    have e : (l.filter fun o => decide (o.1 < telescope.length)).map Prod.fst =
        (List.range (telescope ++ scattering).length).filter fun d => decide (d < telescope.length) := by
      rw [← hl1, List.filter_map]; rfl
    rw [e, List.length_append, List.range_add, List.filter_append, List.filter_eq_self.mpr, List.filter_eq_nil_iff.mpr, List.append_nil]
    · intro d hd; simp at hd ⊢; omega
    · intro d hd; simpa using hd
  · intro r hr
    simp only [List.mem_filter, decide_eq_true_eq] at hr
    obtain ⟨hr, hlt⟩ := hr
    refine ⟨⟨_, List.getElem?_eq_getElem hlt, ?_⟩, (hl2 r hr).2.2⟩
    rw [(hl2 r hr).1]
    have := describes_extrapolate _ (planeOf telescope scattering r.1) seed origin direction hdesc
      (hcr r.1 (by rw [List.length_append]; omega))
    rw [← htel r.1 _ (List.getElem?_eq_getElem hlt)]
    exact this
  · simp only [summary]
    apply List.sum_eq_zero
    intro x hx
    obtain ⟨d, hd, hx⟩ := List.mem_filterMap.mp hx
    cases hlk : l.lookup d with
    | none => rw [hlk] at hx; cases hx
    | some s =>
      rw [hlk] at hx
      have := (hl2 _ (lookup_some_mem l d s hlk)).2.1 (by simpa [setupOf] using hd)
      simp only [Option.bind_some] at hx
      rw [hx] at this
      simp only [] at this
      cases ho : (setupOf telescope scattering V trackHits fitDuts).obs d with
      | none => rw [ho] at this; cases this
      | some m => rw [ho] at this; simpa using this

/-- There is a function that sorts indices. -/
theorem exists_argsort : ∃ argsort : List ℝ → List Nat, ∀ z, SortsIndices z (argsort z) := by
  classical
  refine ⟨fun z => (List.range z.length).mergeSort fun i j => decide (z.getD i 0 ≤ z.getD j 0), fun z => ⟨List.mergeSort_perm _ _, ?_⟩⟩
  have := List.pairwise_mergeSort (le := fun i j : Nat => decide (z.getD i 0 ≤ z.getD j 0))
    (fun a b c h1 h2 => by simp only [decide_eq_true_eq] at *; exact le_trans h1 h2)
    (fun a b => by simpa using le_total (z.getD a 0) (z.getD b 0)) (List.range z.length)
  refine this.imp fun {i j} h x y hx hy => ?_
  simpa [List.getD_eq_getElem?_getD, hx, hy] using h

/-- A plane at z = 5 which is rotated around x by 1 rad. -/
noncomputable def oblique : Plane := ⟨![0, 0, 5], 1, 0, 0, 0.01, none⟩

/-- Telescope with a tilted plane in the middle. -/
noncomputable def obliqueTelescope : List Plane := [flat 0, oblique, flat 20]

theorem oblique_normal : planeNormalOf oblique = ![0, -Real.sin 1, Real.cos 1] := by
  unfold planeNormalOf Plane.rot oblique
  ext i
  fin_cases i <;> simp [rotationMatrix_eq, mulVec, dotProduct, Fin.sum_univ_succ]

theorem flat_normal (z : ℝ) : planeNormalOf (flat z) = ![0, 0, 1] := by
  unfold planeNormalOf; rw [flat_rot, one_mulVec]

theorem oblique_crosses (P : Plane) (hP : P ∈ obliqueTelescope ++ []) (a : ℝ) : Crosses P ![a, 0, 1] := by
  simp [obliqueTelescope] at hP
  unfold Crosses
  rcases hP with rfl | rfl | rfl
  · rw [flat_normal]; simp [Geo.dot]
  · rw [oblique_normal]; simpa [Geo.dot] using Real.cos_one_pos.ne'
  · rw [flat_normal]; simp [Geo.dot]

theorem oblique_order : InBeamOrder (obliqueTelescope ++ []) := by
  have key : ∀ (i : Nat) (P : Plane) (z : ℝ), (obliqueTelescope ++ [])[i]? = some P → OnPlane P.pos (planeNormalOf P) ![0, 0, z] →
      (i = 0 ∧ z = 0) ∨ (i = 1 ∧ z = 5) ∨ (i = 2 ∧ z = 20) := by
    intro i P z hP h
    unfold OnPlane at h
    match i with
    | 0 =>
      simp [obliqueTelescope] at hP
      subst hP
      rw [flat_normal] at h
      left; simpa [Geo.dot, flat] using h
    | 1 =>
      simp [obliqueTelescope] at hP
      subst hP
      rw [oblique_normal] at h
      simp [Geo.dot, oblique, Real.cos_one_pos.ne'] at h
      right; left; exact ⟨rfl, by linarith⟩
    | 2 =>
      simp [obliqueTelescope] at hP
      subst hP
      rw [flat_normal] at h
      simp [Geo.dot, flat] at h
      right; right; exact ⟨rfl, by linarith⟩
    | _ + 3 => simp [obliqueTelescope] at hP
  intro i j P Q z z' hij hP hQ h1 h2
  rcases key i P z hP h1 with ⟨rfl, rfl⟩ | ⟨rfl, rfl⟩ | ⟨rfl, rfl⟩ <;>
    rcases key j Q z' hQ h2 with ⟨rfl, rfl⟩ | ⟨rfl, rfl⟩ | ⟨rfl, rfl⟩ <;> first | (exfalso; omega) | norm_num

/-- A track through a telescope with a tilted plane, which has a hit far away from the track that is not used. -/
example (fx : Fixer) : ∃ svd argsort f, fitKalman fx argsort (AlignTel.lineFit svd) obliqueTelescope [] [1, 1, 1]
    [some ⟨1, 2, 5, 5⟩, some ⟨700, 800, 5, 5⟩, some ⟨11, 2, 5, 5⟩] [0, 2] 5000 0.511 = .ok f ∧ f.chi2 = 0 ∧
      ∀ r ∈ f.planes, ∃ P, obliqueTelescope[r.1]? = some P ∧ Describes P r.2.x ![1, 2, 0] ![0.5, 0, 1] := by
  obtain ⟨svd, hsvd⟩ := AlignTel.exists_svd
  obtain ⟨argsort, hsort⟩ := exists_argsort
  have hg : ∀ z x y, globalPoint (flat z) ![x, y, 0] = ![x, y, z] := by
    intro z x y
    unfold globalPoint
    rw [flat_rot, one_mulVec]
    ext i; fin_cases i <;> simp [flat]
  obtain ⟨f, h1, -, h2, h3, -⟩ := C216_exact fx argsort svd obliqueTelescope [] [1, 1, 1]
    [some ⟨1, 2, 5, 5⟩, some ⟨700, 800, 5, 5⟩, some ⟨11, 2, 5, 5⟩] [0, 2] 5000 0.511 ![1, 2, 0] ![0.5, 0, 1] hsort hsvd oblique_order
    (fun P hP => oblique_crosses P hP 0) (fun P hP => oblique_crosses P hP 0.5)
    (fun P hP => by
      simp [obliqueTelescope] at hP
      rcases hP with rfl | rfl | rfl <;> simp [flat, oblique] <;> norm_num)
    (by simp [obliqueTelescope]) (fun a ha => by simp at ha; subst ha; norm_num)
    (fun d P hit hd hP _ => by
      simp at hd
      rcases hd with rfl | rfl <;> simp [obliqueTelescope] at hP <;> subst hP <;> simp [HasError, flat])
    (by simp [obliqueTelescope])
    (fun d P hit hd hP hh => by
      simp at hd
      rcases hd with rfl | rfl <;> simp [obliqueTelescope] at hP hh <;> subst hP <;> subst hh <;> unfold HitOnLine <;> rw [hg]
      · exact ⟨0, by simp⟩
      · exact ⟨20, by ext i; fin_cases i <;> simp; norm_num⟩)
    ⟨0, by simp, 2, by simp, flat 0, flat 20, ⟨1, 2, 5, 5⟩, ⟨11, 2, 5, 5⟩, rfl, rfl, rfl, rfl, by
      rw [hg, hg]
      intro h
      have := congrFun h 2
      simp at this⟩
  exact ⟨svd, argsort, f, h1, h3, fun r hr => (h2 r hr).1⟩

end BTA.Props
