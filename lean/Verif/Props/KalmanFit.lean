import Verif.Props.Kalman
import Mathlib.Data.List.Perm.Basic
/-
Properties of the track fit with the Kalman filter, `_fit_tracks_kalman_loop` in beam_telescope_analysis/track_analysis.py: C68, C69,
C70. Floating point numbers are real numbers.
-/
namespace BTA.Props
open BTA.Geo BTA.Kalman BTA.Spec Matrix

/-! ### C68 -/

theorem obsCovs_none_iff (alpha : List ℝ) (hits : Nat → Option Hit) :
    ∀ (l : List Plane) (i : Nat), i ≤ alpha.length → (obsCovs alpha hits i l = none ↔ alpha.length < i + l.length)
  | [], i, hi => by simp [obsCovs]; omega
  | P :: rest, i, hi => by
    unfold obsCovs
    by_cases h : i < alpha.length
    · rw [List.getElem?_eq_getElem h]
      simp only [Option.map_eq_none_iff, List.length_cons]
      rw [obsCovs_none_iff alpha hits rest (i + 1) h]
      omega
    · rw [List.getElem?_eq_none (by omega)]
      simp; omega

theorem obsCovs_some (alpha : List ℝ) (hits : Nat → Option Hit) :
    ∀ (l : List Plane) (i : Nat) (V : List ObsCov), obsCovs alpha hits i l = some V →
      V.length = l.length ∧ ∀ k P, l[k]? = some P → ∃ a, alpha[i + k]? = some a ∧ V.getD k 0 = obsCov P (hits (i + k)) a
  | [], i, V, h => by simp [obsCovs] at h; subst h; simp
  | P :: rest, i, V, h => by
    unfold obsCovs at h
    cases ha : alpha[i]? with
    | none => rw [ha] at h; cases h
    | some a =>
      rw [ha] at h
      simp only [Option.map_eq_some_iff] at h
      obtain ⟨W, hW, rfl⟩ := h
      obtain ⟨h1, h2⟩ := obsCovs_some alpha hits rest (i + 1) W hW
      refine ⟨by simp [h1], fun k Q hk => ?_⟩
      cases k with
      | zero =>
        simp at hk
        subst hk
        exact ⟨a, by simpa using ha, by simp⟩
      | succ k =>
        simp at hk
        obtain ⟨b, hb, hV⟩ := h2 k Q hk
        exact ⟨b, by rw [← hb]; congr 1; omega, by rw [List.getD_cons_succ, hV]; congr 2; omega⟩

/-- The planes of a telescope with scattering planes. -/
noncomputable def planeOf (telescope scattering : List Plane) (d : Nat) : Plane := (telescope ++ scattering).getD d ⟨0, 0, 0, 0, 0, none⟩

/-- The input of the Kalman filter for a track. -/
noncomputable def setupOf (telescope scattering : List Plane) (V : List ObsCov) (trackHits : List (Option Hit)) (fitDuts : List Nat) : Setup :=
  { planes := planeOf telescope scattering, H := fun _ => obsMat, V := fun d => V.getD d 0,
    obs := fun d => (trackHits.getD d none).map fun h => ![h.x, h.y], fit := fun d => fitDuts.contains d, x0 := 0, C0 := initialCov }

theorem fitKalman_ok (fx : Fixer) (argsort : List ℝ → List Nat) (lineFit : List Vec3 → Vec3 × Vec3) (telescope scattering : List Plane)
    (alpha : List ℝ) (trackHits : List (Option Hit)) (fitDuts : List Nat) (energy mass : ℝ) (f : Fit)
    (h : fitKalman fx argsort lineFit telescope scattering alpha trackHits fitDuts energy mass = .ok f) :
    ∃ z V seed l, zIntersections (telescope ++ scattering) = some z ∧
      (¬ ∃ d ∈ (argsort z).dropLast, |(planeOf telescope scattering d).budget| ≤ 1e-8) ∧
      obsCovs alpha (fun d => trackHits.getD d none) 0 (telescope ++ scattering) = some V ∧
      trackSeed lineFit (planeOf telescope scattering) (planeOf telescope scattering ((argsort z).headD 0)) fitDuts
        (fun d => trackHits.getD d none) = some seed ∧
      smooth (setupOf telescope scattering V trackHits fitDuts) fx (Real.sqrt (energy ^ 2 - mass ^ 2))
        (Real.sqrt (energy ^ 2 - mass ^ 2) / energy) seed (argsort z) = some l ∧
      f = ⟨l.filter fun o => o.1 < telescope.length, (summary fitDuts l).1, (summary fitDuts l).2⟩ := by
  unfold fitKalman at h
  simp only [] at h
  cases hz : zIntersections (telescope ++ scattering) with
  | none => rw [hz] at h; cases h
  | some z =>
    rw [hz] at h
    simp only [] at h
    split at h
    · cases h
    · rename_i hb
      cases hV : obsCovs alpha (fun d => trackHits.getD d none) 0 (telescope ++ scattering) with
      | none => rw [hV] at h; cases h
      | some V =>
        rw [hV] at h
        simp only [] at h
        split at h
        · cases h
        · rename_i seed hseed
          split at h
          · cases h
          · rename_i l hl
            injection h with h
            exact ⟨z, V, seed, l, rfl, hb, rfl, hseed, hl, h.symm⟩

/-- C68 does not hold: with scattering planes and annealing factors for the DUTs of the telescope only (fit_tracks, L949, and the Kalman
alignment, dut_alignment.py L1470), the fit always raises an exception. -/
theorem C68_scattering_planes_raise (fx : Fixer) (argsort : List ℝ → List Nat) (lineFit : List Vec3 → Vec3 × Vec3)
    (telescope scattering : List Plane) (alpha : List ℝ) (trackHits : List (Option Hit)) (fitDuts : List Nat) (energy mass : ℝ)
    (hs : scattering ≠ []) (ha : alpha.length = telescope.length) :
    ∃ e, fitKalman fx argsort lineFit telescope scattering alpha trackHits fitDuts energy mass = .error e ∧
      (e = .parallel ∨ e = .materialZero ∨ e = .index) := by
  have hV : obsCovs alpha (fun d => trackHits.getD d none) 0 (telescope ++ scattering) = none := by
    rw [obsCovs_none_iff _ _ _ _ (Nat.zero_le _), List.length_append]
    have := List.length_pos_of_ne_nil hs
    omega
  unfold fitKalman
  simp only []
  cases hz : zIntersections (telescope ++ scattering) with
  | none => exact ⟨_, rfl, .inl rfl⟩
  | some z =>
    simp only []
    split
    · exact ⟨_, rfl, .inr (.inl rfl)⟩
    · rw [hV]; exact ⟨_, rfl, .inr (.inr rfl)⟩

/-- C68, partial: the index error occurs only if there are fewer annealing factors than planes, so never without scattering planes. -/
theorem C68_partial (fx : Fixer) (argsort : List ℝ → List Nat) (lineFit : List Vec3 → Vec3 × Vec3)
    (telescope scattering : List Plane) (alpha : List ℝ) (trackHits : List (Option Hit)) (fitDuts : List Nat) (energy mass : ℝ)
    (ha : telescope.length + scattering.length ≤ alpha.length) :
    fitKalman fx argsort lineFit telescope scattering alpha trackHits fitDuts energy mass ≠ .error .index := by
  have hV : obsCovs alpha (fun d => trackHits.getD d none) 0 (telescope ++ scattering) ≠ none := by
    rw [Ne, obsCovs_none_iff _ _ _ _ (Nat.zero_le _), List.length_append]
    omega
  unfold fitKalman
  simp only []
  split
  · simp
  · split
    · simp
    · split
      · rename_i h; exact absurd h hV
      · split
        · simp
        · split <;> simp

example : [tilted] ≠ [] ∧ ([1, 1] : List ℝ).length = [flat 0, flat 10].length := by simp

/-! ### C69 -/

theorem seed_same (lineFit : List Vec3 → Vec3 × Vec3) (plane : Nat → Plane) (first : Plane) (fitDuts : List Nat) (hits hits' : Nat → Option Hit)
    (h : ∀ d ∈ fitDuts, hits d = hits' d) : trackSeed lineFit plane first fitDuts hits = trackSeed lineFit plane first fitDuts hits' := by
  unfold trackSeed
  rw [List.filterMap_congr (g := fun d => (hits' d).map fun h => (plane d).rot.mulVec ![h.x, h.y, 0] + (plane d).pos)
    (fun d hd => by rw [h d hd])]

theorem lookup_same (S : Setup) (d : Nat) (hd : S.fit d = true) (l l' : List (Nat × Smoothed))
    (h : List.Forall₂ (fun (a b : Nat × Smoothed) => a.1 = b.1 ∧ a.2.x = b.2.x ∧ a.2.C = b.2.C ∧ (S.fit a.1 = true → a.2.chi2 = b.2.chi2)) l l') :
    (l.lookup d).bind Smoothed.chi2 = (l'.lookup d).bind Smoothed.chi2 := by
  induction h with
  | nil => rfl
  | @cons a b l l' hab _ ih =>
    obtain ⟨a1, a2⟩ := a
    obtain ⟨b1, b2⟩ := b
    obtain ⟨e, -, -, hc⟩ := hab
    simp only [] at e hc
    subst e
    rw [List.lookup_cons, List.lookup_cons]
    by_cases hda : d = a1
    · subst hda; simp [hc hd]
    · have : (d == a1) = false := by simpa using hda
      rw [this]; exact ih

theorem forall₂_filter {α β : Type} {R : α → β → Prop} {p : α → Bool} {q : β → Bool} {l : List α} {l' : List β}
    (h : List.Forall₂ R l l') (hpq : ∀ a b, R a b → p a = q b) : List.Forall₂ R (l.filter p) (l'.filter q) := by
  induction h with
  | nil => exact .nil
  | @cons a b l l' hab _ ih =>
    rw [List.filter_cons, List.filter_cons, hpq a b hab]
    split
    · exact .cons hab ih
    · exact ih

/-- C69: the hits of DUTs which are not selected for the fit have no influence on the fitted track: with other hits there, the states and
covariances at all DUTs, the chi-square and the degrees of freedom are the same. -/
theorem C69_unbiased (fx : Fixer) (argsort : List ℝ → List Nat) (lineFit : List Vec3 → Vec3 × Vec3)
    (telescope scattering : List Plane) (alpha : List ℝ) (trackHits trackHits' : List (Option Hit)) (fitDuts : List Nat) (energy mass : ℝ)
    (hfit : ∀ d ∈ fitDuts, d < telescope.length) (hh : ∀ d ∈ fitDuts, trackHits[d]? = trackHits'[d]?) (f f' : Fit)
    (h : fitKalman fx argsort lineFit telescope scattering alpha trackHits fitDuts energy mass = .ok f)
    (h' : fitKalman fx argsort lineFit telescope scattering alpha trackHits' fitDuts energy mass = .ok f') :
    f.planes.map (fun r => (r.1, r.2.x, r.2.C)) = f'.planes.map (fun r => (r.1, r.2.x, r.2.C)) ∧ f.chi2 = f'.chi2 ∧ f.dof = f'.dof := by
  obtain ⟨z, V, seed, l, hz, -, hV, hseed, hl, rfl⟩ := fitKalman_ok _ _ _ _ _ _ _ _ _ _ _ h
  obtain ⟨z', V', seed', l', hz', -, hV', hseed', hl', rfl⟩ := fitKalman_ok _ _ _ _ _ _ _ _ _ _ _ h'
  rw [hz] at hz'; cases hz'
  have hd : ∀ d ∈ fitDuts, trackHits.getD d none = trackHits'.getD d none := by
    intro d hd; rw [List.getD_eq_getElem?_getD, List.getD_eq_getElem?_getD, hh d hd]
  rw [seed_same lineFit _ _ fitDuts _ _ hd, hseed'] at hseed
  cases hseed
  have hS : SameForFit (setupOf telescope scattering V trackHits fitDuts) (setupOf telescope scattering V' trackHits' fitDuts) := by
    refine ⟨rfl, rfl, rfl, rfl, rfl, fun d hf => ?_⟩
    have hm : d ∈ fitDuts := by simpa [setupOf] using hf
    have hlt : d < (telescope ++ scattering).length := by rw [List.length_append]; have := hfit d hm; omega
    obtain ⟨a, ha, e⟩ := (obsCovs_some _ _ _ _ _ hV).2 d _ (List.getElem?_eq_getElem hlt)
    obtain ⟨a', ha', e'⟩ := (obsCovs_some _ _ _ _ _ hV').2 d _ (List.getElem?_eq_getElem hlt)
    rw [ha] at ha'; cases ha'
    simp only [setupOf]
    rw [e, e', Nat.zero_add, hd d hm]
    exact ⟨rfl, rfl⟩
  have hsame := smooth_same _ _ hS fx _ _ _ (argsort z) l l' hl hl'
  have hc : (fitDuts.filterMap fun d => (l.lookup d).bind Smoothed.chi2) = fitDuts.filterMap fun d => (l'.lookup d).bind Smoothed.chi2 :=
    List.filterMap_congr fun d hd' => lookup_same _ d (by simpa [setupOf] using hd') l l' hsame
  refine ⟨?_, ?_, ?_⟩
  · have := forall₂_filter (p := fun o => decide (o.1 < telescope.length)) (q := fun o => decide (o.1 < telescope.length)) hsame
      (fun a b hab => by rw [hab.1])
    refine List.forall₂_eq_eq_eq ▸ ?_
    rw [List.forall₂_map_left_iff, List.forall₂_map_right_iff]
    exact this.imp fun a b hab => by rw [hab.1, hab.2.1, hab.2.2.1]
  · simp only [summary, hc]
  · simp only [summary, hc]

example : (∀ d ∈ [0, 2], d < [flat 0, flat 10, flat 20].length) ∧
    ∀ d ∈ [0, 2], [some (⟨1, 2, 5, 5⟩ : Hit), none, some ⟨3, 4, 5, 5⟩][d]? = [some ⟨1, 2, 5, 5⟩, some ⟨7, 8, 5, 5⟩, some ⟨3, 4, 5, 5⟩][d]? := by
  constructor <;> intro d hd <;> simp at hd <;> rcases hd with rfl | rfl <;> simp

/-! ### C70 -/

theorem smooth_chi2 (S : Setup) (fx : Fixer) (momentum beta : ℝ) (seed : State) (order : List Nat) (l : List (Nat × Smoothed))
    (h : smooth S fx momentum beta seed order = some l) : l.map Prod.fst = order ∧
      ∀ r ∈ l, r.2.chi2.isSome = (S.obs r.1).isSome ∧ ∀ c, r.2.chi2 = some c → 0 ≤ c := by
  obtain ⟨s, F, B, hs, hF, hB, hl, hc⟩ := (smooth_split S fx momentum beta seed order l).mp h
  have hf := smoothLoop_eq S fx s.1 F B order.length order.zipIdx l hl
  have key : ∀ (z : List (Nat × Nat)) (l : List (Nat × Smoothed)),
      List.Forall₂ (fun (a : Nat × Nat) (r : Nat × Smoothed) => r.1 = a.1 ∧
        r.2.x = (smoothPlane (outAt F a.1) (outAt B a.1) a.2 order.length).1 + s.1 a.1 ∧
        r.2.C = (smoothPlane (outAt F a.1) (outAt B a.1) a.2 order.length).2 ∧
        smoothChi2 S fx (s.1 a.1) a.1 (smoothPlane (outAt F a.1) (outAt B a.1) a.2 order.length) = some r.2.chi2) z l →
      l.map Prod.fst = z.map Prod.fst ∧ ∀ r ∈ l, r.2.chi2.isSome = (S.obs r.1).isSome := by
    intro z l h
    induction h with
    | nil => simp
    | @cons a r z l har _ ih =>
      obtain ⟨e1, -, -, e4⟩ := har
      refine ⟨by simp [e1, ih.1], fun q hq => ?_⟩
      rcases List.mem_cons.mp hq with rfl | hq
      · unfold smoothChi2 at e4
        rw [e1]
        cases ho : S.obs a.1 with
        | none => rw [ho] at e4; simp at e4; rw [← e4]; rfl
        | some m =>
          rw [ho] at e4
          simp only [Option.map_eq_some_iff] at e4
          obtain ⟨W, -, e⟩ := e4
          rw [← e]; rfl
      · exact ih.2 q hq
  obtain ⟨k1, k2⟩ := key _ _ hf
  exact ⟨by rw [k1, zipIdx_fst], fun r hr => ⟨k2 r hr, hc r hr⟩⟩

theorem lookup_some_mem {β : Type} (l : List (Nat × β)) (d : Nat) (b : β) (h : l.lookup d = some b) : (d, b) ∈ l := by
  induction l with
  | nil => simp at h
  | cons a l ih =>
    obtain ⟨a1, a2⟩ := a
    rw [List.lookup_cons] at h
    by_cases hda : d = a1
    · subst hda; simp at h; subst h; simp
    · have : (d == a1) = false := by simpa using hda
      rw [this] at h; exact List.mem_cons_of_mem _ (ih h)

theorem lookup_isSome {β : Type} (l : List (Nat × β)) (d : Nat) (h : d ∈ l.map Prod.fst) : ∃ b, l.lookup d = some b := by
  induction l with
  | nil => simp at h
  | cons a l ih =>
    obtain ⟨a1, a2⟩ := a
    rw [List.lookup_cons]
    by_cases hda : d = a1
    · subst hda; exact ⟨a2, by simp⟩
    · have : (d == a1) = false := by simpa using hda
      rw [this]
      simp at h
      rcases h with h | h
      · exact absurd h hda
      · exact ih (by simpa using h)

/-- C70: a fit which succeeds gives exactly one result for each DUT, in the order of the planes along the beam; the chi-square is not
negative and the number of degrees of freedom is two per hit of a fit DUT minus the four parameters of the track. -/
theorem C70_result (fx : Fixer) (argsort : List ℝ → List Nat) (lineFit : List Vec3 → Vec3 × Vec3)
    (telescope scattering : List Plane) (alpha : List ℝ) (trackHits : List (Option Hit)) (fitDuts : List Nat) (energy mass : ℝ)
    (hsort : ∀ z, (argsort z).Perm (List.range z.length)) (hfit : ∀ d ∈ fitDuts, d < telescope.length) (f : Fit)
    (h : fitKalman fx argsort lineFit telescope scattering alpha trackHits fitDuts energy mass = .ok f) :
    (f.planes.map Prod.fst).Perm (List.range telescope.length) ∧
      (∃ z, zIntersections (telescope ++ scattering) = some z ∧ (f.planes.map Prod.fst).Sublist (argsort z)) ∧
      0 ≤ f.chi2 ∧ f.dof = 2 * (fitDuts.countP fun d => (trackHits.getD d none).isSome) - 4 := by
  obtain ⟨z, V, seed, l, hz, -, hV, hseed, hl, rfl⟩ := fitKalman_ok _ _ _ _ _ _ _ _ _ _ _ h
  obtain ⟨h1, h2⟩ := smooth_chi2 _ _ _ _ _ _ _ hl
  have hlen : z.length = telescope.length + scattering.length := by
    have : ∀ (l : List Plane) (z : List ℝ), zIntersections l = some z → z.length = l.length := by
      intro l
      induction l with
      | nil => intro z h; simp [zIntersections] at h; subst h; rfl
      | cons P l ih =>
        intro z h
        simp only [zIntersections, Option.bind_eq_some_iff, Option.map_eq_some_iff] at h
        obtain ⟨a, -, y, hy, rfl⟩ := h
        simp [ih y hy]
    rw [this _ _ hz, List.length_append]
  have hp := hsort z
  rw [hlen] at hp
  have e : (l.filter fun o => decide (o.1 < telescope.length)).map Prod.fst = (argsort z).filter fun d => decide (d < telescope.length) := by
    rw [← h1, List.filter_map]; rfl
  have hr : (List.range (telescope.length + scattering.length)).filter (fun d => decide (d < telescope.length)) = List.range telescope.length := by
    rw [List.range_add, List.filter_append, List.filter_eq_self.mpr, List.filter_eq_nil_iff.mpr, List.append_nil]
    · intro d hd; simp at hd ⊢; omega
    · intro d hd; simpa using hd
  have hmem : ∀ d ∈ fitDuts, ∃ s, l.lookup d = some s ∧ (d, s) ∈ l := by
    intro d hd
    obtain ⟨s, hs⟩ := lookup_isSome l d (by
      rw [h1]; exact hp.symm.subset (List.mem_range.mpr (by have := hfit d hd; omega)))
    exact ⟨s, hs, lookup_some_mem l d s hs⟩
  refine ⟨?_, ⟨z, hz, ?_⟩, ?_, ?_⟩
  · simp only [e]; rw [← hr]; exact hp.filter _
  · simp only [e]; exact List.filter_sublist
  · simp only [summary]
    apply List.sum_nonneg
    intro c hc
    obtain ⟨d, hd, hc⟩ := List.mem_filterMap.mp hc
    obtain ⟨s, hs, hm⟩ := hmem d hd
    rw [hs] at hc
    exact (h2 _ hm).2 c hc
  · simp only [summary]
    congr 2
    have : ∀ L : List Nat, (∀ d ∈ L, d ∈ fitDuts) →
        (L.filterMap fun d => (l.lookup d).bind Smoothed.chi2).length = L.countP fun d => (trackHits.getD d none).isSome := by
      intro L hL
      induction L with
      | nil => rfl
      | cons d L ih =>
        obtain ⟨s, hs, hm⟩ := hmem d (hL d (by simp))
        have h3 := (h2 _ hm).1
        simp only [setupOf, Option.isSome_map] at h3
        have ih := ih fun d hd => hL d (List.mem_cons_of_mem _ hd)
        rw [List.countP_cons, ← ih, ← h3]
        cases hc : s.chi2 with
        | none => rw [List.filterMap_cons_none (by rw [hs]; exact hc)]; simp
        | some c => rw [List.filterMap_cons_some (by rw [hs]; exact hc)]; simp
    exact_mod_cast this fitDuts fun _ h => h

theorem dotNormal_ne (P : Plane) (d : Vec3) (h : Crosses P d) : dot (dutNormal P.alpha P.beta P.gamma) d ≠ 0 := by
  have e : planeNormalOf P = fun i => rotationMatrix P.alpha P.beta P.gamma i 2 := by
    unfold planeNormalOf Plane.rot
    ext i; simp [mulVec, dotProduct, Fin.sum_univ_succ]
  unfold Crosses at h
  rw [e] at h
  rcases dutNormal_eq P.alpha P.beta P.gamma with h1 | h1
  · rw [h1]; exact h
  · rw [h1]; unfold dot at h ⊢
    intro h0; apply h
    simp only [Pi.neg_apply] at h0
    linarith

theorem intersect_some (P : Plane) (o d : Vec3) (h : Crosses P d) :
    ∃ q, intersectDut [(o, d)] (P.pos 0) (P.pos 1) (P.pos 2) P.alpha P.beta P.gamma = some q := by
  cases e : intersectDut [(o, d)] (P.pos 0) (P.pos 1) (P.pos 2) P.alpha P.beta P.gamma with
  | some q => exact ⟨q, rfl⟩
  | none =>
    unfold intersectDut at e
    obtain ⟨l, hl, h0⟩ := (C33_raises_iff _ _ _).mp e
    simp at hl
    subst hl
    exact absurd h0 (dotNormal_ne P d h)

theorem zIntersections_some (l : List Plane) (h : ∀ P ∈ l, Crosses P ![0, 0, 1]) : ∃ z, zIntersections l = some z ∧ z.length = l.length := by
  induction l with
  | nil => exact ⟨[], rfl, rfl⟩
  | cons P l ih =>
    obtain ⟨z, hz, hlen⟩ := ih fun Q hQ => h Q (List.mem_cons_of_mem _ hQ)
    obtain ⟨q, hq⟩ := intersect_some P 0 ![0, 0, 1] (h P (by simp))
    refine ⟨(q.headD 0) 2 :: z, ?_, by simp [hlen]⟩
    unfold zIntersections zIntersection
    rw [hq, hz]; rfl

theorem diag2_psd (a b : ℝ) (ha : 0 ≤ a) (hb : 0 ≤ b) : (!![a, 0; 0, b] : ObsCov).PosSemidef := by
  have : (!![a, 0; 0, b] : ObsCov) = Matrix.diagonal ![a, b] := by ext i j; fin_cases i <;> fin_cases j <;> simp
  rw [this]
  exact Matrix.PosSemidef.diagonal (by intro i; fin_cases i <;> simp [ha, hb])

theorem diag2_pd (a b : ℝ) (ha : 0 < a) (hb : 0 < b) : (!![a, 0; 0, b] : ObsCov).PosDef := by
  have : (!![a, 0; 0, b] : ObsCov) = Matrix.diagonal ![a, b] := by ext i j; fin_cases i <;> fin_cases j <;> simp
  rw [this]
  exact Matrix.PosDef.diagonal (by intro i; fin_cases i <;> simp [ha, hb])

theorem initialCov_pd : initialCov.PosDef := by
  unfold initialCov
  exact Matrix.PosDef.diagonal (by intro i; fin_cases i <;> norm_num)

/-- The hit has a measurement error in both coordinates: from the resolution of the plane or of the hit itself. -/
def HasError (P : Plane) (hit : Hit) : Prop :=
  match P.resolution with
  | some r => r.1 ≠ 0 ∧ r.2 ≠ 0
  | none => hit.xErr ≠ 0 ∧ hit.yErr ≠ 0

theorem obsCov_psd (P : Plane) (hit : Option Hit) (a : ℝ) (ha : 0 < a) : (obsCov P hit a).PosSemidef := by
  unfold obsCov
  split
  · exact diag2_psd _ _ (by positivity) (by positivity)
  · exact diag2_psd _ _ (by positivity) (by positivity)
  · exact Matrix.PosSemidef.zero

theorem obsCov_pd (P : Plane) (hit : Hit) (a : ℝ) (ha : 0 < a) (h : HasError P hit) : (obsCov P (some hit) a).PosDef := by
  unfold HasError at h
  unfold obsCov
  cases hr : P.resolution with
  | some r =>
    rw [hr] at h
    obtain ⟨h1, h2⟩ := h
    exact diag2_pd _ _ (by positivity) (by positivity)
  | none =>
    rw [hr] at h
    obtain ⟨h1, h2⟩ := h
    exact diag2_pd _ _ (by positivity) (by positivity)

/-- C70: for parallel planes the fit never raises: if the planes are not parallel to the beam or the seed, all planes have material, every
plane has an annealing factor and every hit used for the fit has an error, then there is a result. -/
theorem C70_success (fx : Fixer) (argsort : List ℝ → List Nat) (lineFit : List Vec3 → Vec3 × Vec3)
    (telescope scattering : List Plane) (alpha : List ℝ) (trackHits : List (Option Hit)) (fitDuts : List Nat) (energy mass : ℝ)
    (hsort : ∀ z, (argsort z).Perm (List.range z.length))
    (hne : telescope ≠ [])
    (hpar : ∀ P ∈ telescope ++ scattering, ∀ P' ∈ telescope ++ scattering, P.rot = P'.rot)
    (hbeam : ∀ P ∈ telescope ++ scattering, Crosses P ![0, 0, 1]) (hseed : ∀ l, ∀ P ∈ telescope ++ scattering, Crosses P (lineFit l).2)
    (hmat : ∀ P ∈ telescope ++ scattering, 1e-8 < P.budget)
    (halpha : telescope.length + scattering.length ≤ alpha.length) (hpos : ∀ a ∈ alpha, 0 < a)
    (herr : ∀ d P hit, d ∈ fitDuts → (telescope ++ scattering)[d]? = some P → trackHits[d]? = some (some hit) → HasError P hit)
    (hfit : ∀ d ∈ fitDuts, d < telescope.length) :
    ∃ f, fitKalman fx argsort lineFit telescope scattering alpha trackHits fitDuts energy mass = .ok f := by
  obtain ⟨z, hz, hlen⟩ := zIntersections_some _ hbeam
  have hp := hsort z
  rw [hlen] at hp
  have hplane : ∀ d ∈ argsort z, ∃ P, (telescope ++ scattering)[d]? = some P ∧ P ∈ telescope ++ scattering ∧
      (telescope ++ scattering).getD d ⟨0, 0, 0, 0, 0, none⟩ = P := by
    intro d hd
    have hlt := List.mem_range.mp (hp.subset hd)
    exact ⟨_, List.getElem?_eq_getElem hlt, List.getElem_mem hlt, by rw [List.getD_eq_getElem?_getD, List.getElem?_eq_getElem hlt]; rfl⟩
  have hhead : (argsort z).headD 0 ∈ argsort z := by
    cases he : argsort z with
    | nil =>
      have := hp.length_eq
      rw [he, List.length_range, List.length_append] at this
      have := List.length_pos_of_ne_nil hne
      simp at *
      omega
    | cons a l => simp
  have hmz : ¬ ∃ d ∈ (argsort z).dropLast, |((telescope ++ scattering).getD d ⟨0, 0, 0, 0, 0, none⟩).budget| ≤ 1e-8 := by
    rintro ⟨d, hd, h⟩
    obtain ⟨P, -, hP, e⟩ := hplane d (List.dropLast_sublist _ |>.subset hd)
    rw [e] at h
    have := hmat P hP
    have := le_abs_self P.budget
    linarith
  obtain ⟨V, hV⟩ : ∃ V, obsCovs alpha (fun d => trackHits.getD d none) 0 (telescope ++ scattering) = some V := by
    rw [← Option.ne_none_iff_exists', Ne, obsCovs_none_iff _ _ _ _ (Nat.zero_le _), List.length_append]
    omega
  obtain ⟨hV1, hV2⟩ := obsCovs_some _ _ _ _ _ hV
  obtain ⟨seed, hs⟩ : ∃ seed, trackSeed lineFit (planeOf telescope scattering) (planeOf telescope scattering ((argsort z).headD 0)) fitDuts
      (fun d => trackHits.getD d none) = some seed := by
    unfold trackSeed
    obtain ⟨P, -, hP, e⟩ := hplane _ hhead
    simp only [planeOf, e]
    obtain ⟨q, hq⟩ := intersect_some P _ _ (hseed _ P hP)
    rw [hq]
    exact ⟨_, rfl⟩
  have hreg : Regular (setupOf telescope scattering V trackHits fitDuts) := by
    refine ⟨initialCov_pd, fun d => ?_, fun d hd ho => ?_⟩
    · simp only [setupOf]
      by_cases hlt : d < (telescope ++ scattering).length
      · obtain ⟨a, ha, e⟩ := hV2 d _ (List.getElem?_eq_getElem hlt)
        rw [e]; exact obsCov_psd _ _ _ (hpos a (List.mem_of_getElem? ha))
      · rw [List.getD_eq_getElem?_getD, List.getElem?_eq_none (by rw [hV1]; omega)]; exact Matrix.PosSemidef.zero
    · have hm : d ∈ fitDuts := by simpa [setupOf] using hd
      have hlt : d < (telescope ++ scattering).length := by rw [List.length_append]; have := hfit d hm; omega
      obtain ⟨a, ha, e⟩ := hV2 d _ (List.getElem?_eq_getElem hlt)
      simp only [setupOf, Option.isSome_map] at ho ⊢
      obtain ⟨hit, hhit⟩ := Option.isSome_iff_exists.mp ho
      rw [e, Nat.zero_add, hhit]
      refine obsCov_pd _ _ _ (hpos a (List.mem_of_getElem? ha)) (herr d _ hit hm (List.getElem?_eq_getElem hlt) ?_)
      rw [List.getD_eq_getElem?_getD] at hhit
      cases ht : trackHits[d]? with
      | none => rw [ht] at hhit; cases hhit
      | some o => rw [ht] at hhit; simp at hhit; rw [hhit]
  obtain ⟨l, hl, -, -⟩ := C43_fit_parallel (setupOf telescope scattering V trackHits fitDuts) hreg fx (Real.sqrt (energy ^ 2 - mass ^ 2))
    (Real.sqrt (energy ^ 2 - mass ^ 2) / energy) seed (argsort z) (by
      intro p hp' d hd
      obtain ⟨P, -, hP, e⟩ := hplane p hp'
      obtain ⟨D, -, hD, e'⟩ := hplane d hd
      simp only [setupOf, planeOf, e, e']
      exact hpar P hP D hD)
  unfold fitKalman
  simp only []
  rw [hz]
  simp only []
  rw [if_neg hmz, hV]
  have e : planeOf telescope scattering = fun d => (telescope ++ scattering).getD d ⟨0, 0, 0, 0, 0, none⟩ := rfl
  simp only [setupOf, e] at hs hl
  simp only [hs]
  rw [hl]
  exact ⟨_, rfl⟩

/-- A telescope for which `C70_success` applies. -/
noncomputable def exampleTelescope : List Plane := [flat 0, flat 10, flat 20]

theorem flat_crosses (z : ℝ) : Crosses (flat z) ![0, 0, 1] := by
  unfold Crosses planeNormalOf
  rw [flat_rot]; simp [dot]

theorem exampleTelescope_flat : ∀ P ∈ exampleTelescope ++ [], ∃ z, P = flat z := by
  intro P hP
  simp [exampleTelescope] at hP
  rcases hP with rfl | rfl | rfl
  · exact ⟨_, rfl⟩
  · exact ⟨_, rfl⟩
  · exact ⟨_, rfl⟩

example (fx : Fixer) : ∃ f, fitKalman fx (fun z => List.range z.length) (fun _ => (0, ![0, 0, 1])) exampleTelescope [] [1, 1, 1]
    [some ⟨1, 2, 5, 5⟩, none, some ⟨3, 4, 5, 5⟩] [0, 1, 2] 5000 0.511 = .ok f := by
  refine C70_success fx _ _ exampleTelescope [] _ _ _ _ _ (fun z => List.Perm.refl _) (by simp [exampleTelescope]) ?_ ?_ ?_ ?_ ?_ ?_ ?_ ?_
  · intro P hP P' hP'
    obtain ⟨z, rfl⟩ := exampleTelescope_flat P hP
    obtain ⟨z', rfl⟩ := exampleTelescope_flat P' hP'
    rw [flat_rot, flat_rot]
  · intro P hP
    obtain ⟨z, rfl⟩ := exampleTelescope_flat P hP
    exact flat_crosses z
  · intro l P hP
    obtain ⟨z, rfl⟩ := exampleTelescope_flat P hP
    exact flat_crosses z
  · intro P hP
    obtain ⟨z, rfl⟩ := exampleTelescope_flat P hP
    simp [flat]; norm_num
  · simp [exampleTelescope]
  · intro a ha; simp at ha; subst ha; norm_num
  · intro d P hit _ hP _
    obtain ⟨z, rfl⟩ := exampleTelescope_flat P (List.mem_of_getElem? hP)
    simp [HasError, flat]
  · simp [exampleTelescope]

end BTA.Props
