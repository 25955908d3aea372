import Verif.Spec.SimData
import Verif.Lemmas.SimulateStore
import Verif.Lemmas.Digitize
/-
Lemmas about the content of simulated data.
-/
namespace BTA.Sim
open Spec BTA.Geo BTA.Spec

section
variable {K : Type} [Field K] [LinearOrder K]

/-! ### Room for the hits of charge sharing -/

theorem csRows_room {minF charge : K} {room : Nat} {c : Int} {frac : Int → K} : ∀ {rows : List Int} {s s' : CsState K},
    csRows minF charge room c frac rows s = .ok s' → s.hits.length ≤ room → s'.hits.length ≤ room := by
  intro rows
  induction rows with
  | nil =>
    intro s s' h hl
    cases h
    exact hl
  | cons r rs ih =>
    intro s s' h hl
    unfold csRows at h
    split_ifs at h with h1 h2 h3
    · cases h
      exact hl
    · cases h
      simp only [List.length_append, List.length_singleton]
      omega
    · refine ih h ?_
      simp only [List.length_append, List.length_singleton]
      omega

theorem csColumns_room {minF charge : K} {room : Nat} {column row maxRow : Int} {frac : Int → Int → K} :
    ∀ {cols : List Int} {s s' : CsState K}, csColumns minF charge room column row maxRow frac cols s = .ok s' → s.hits.length ≤ room →
      s'.hits.length ≤ room := by
  intro cols
  induction cols with
  | nil =>
    intro s s' h hl
    cases h
    exact hl
  | cons c cs ih =>
    intro s s' h hl
    unfold csColumns at h
    split_ifs at h with h1
    · cases h
      exact hl
    · split at h
      · cases h
      · next s1 e1 =>
        split at h
        · cases h
        · next s2 e2 => exact ih h (csRows_room e2 (csRows_room e1 hl))

theorem createCs_room {minF charge : K} {room : Nat} {column row maxColumn maxRow : Int} {frac : Int → Int → K} {hits : List (PixelHit K)}
    (h : createCs minF charge room column row maxColumn maxRow frac = .ok hits) : hits.length ≤ room := by
  unfold createCs at h
  split at h
  · cases h
  · next s e =>
    split at h
    · cases h
    · next s2 e2 =>
      cases h
      exact csColumns_room e2 (csColumns_room e (Nat.zero_le _))

theorem addCs_room {minF : K} {mc mr : Int} {frac : K → K → Int → Int → K} {size : Nat} : ∀ {ss : List (Seed K)} {used : Nat}
    {l : List (Int × PixelHit K)}, addCs minF mc mr frac size used ss = .ok l → used ≤ size → used + l.length ≤ size := by
  intro ss
  induction ss with
  | nil =>
    intro used l h hu
    cases h
    simpa using hu
  | cons s ss ih =>
    intro used l h hu
    unfold addCs at h
    split at h
    · cases h
    · next hits e =>
      split at h
      · cases h
      · next rest e2 =>
        cases h
        have h1 := createCs_room e
        have h2 := ih e2 (by omega)
        rw [List.length_append, List.length_map]
        omega

/-! The other direction: with more room the result is the same, or there was no room. -/

theorem csRows_more {minF charge : K} {room room' : Nat} {c : Int} {frac : Int → K} : ∀ {rows : List Int} {s s' : CsState K},
    csRows minF charge room' c frac rows s = .ok s' → s'.hits.length ≤ room → csRows minF charge room c frac rows s = .ok s' := by
  intro rows
  induction rows with
  | nil =>
    intro s s' h hl
    exact h
  | cons r rs ih =>
    intro s s' h hl
    have hgrow := (csRows_ok h)
    unfold csRows at h ⊢
    split_ifs at h with h1 h2 h3
    · rw [if_pos h1]
      exact h
    · cases h
      simp only [List.length_append, List.length_singleton] at hl
      rw [if_neg h1, if_neg (by omega), if_pos h3]
    · rw [if_neg h1, if_neg, if_neg h3]
      · exact ih h hl
      · obtain ⟨rs', -, -, h4⟩ := csRows_ok h
        rw [h4] at hl
        simp only [List.length_append, List.length_singleton] at hl
        omega

theorem csRows_grow {minF charge : K} {room : Nat} {c : Int} {frac : Int → K} {rows : List Int} {s s' : CsState K}
    (h : csRows minF charge room c frac rows s = .ok s') : s.hits.length ≤ s'.hits.length := by
  obtain ⟨rs, -, -, h4⟩ := csRows_ok h
  rw [h4, List.length_append]
  omega

theorem csColumns_grow {minF charge : K} {room : Nat} {column row maxRow : Int} {frac : Int → Int → K} {cols : List Int} {s s' : CsState K}
    (h : csColumns minF charge room column row maxRow frac cols s = .ok s') : s.hits.length ≤ s'.hits.length := by
  obtain ⟨ps, -, -, h4⟩ := csColumns_ok h
  rw [h4, List.length_append]
  omega

theorem csColumns_more {minF charge : K} {room room' : Nat} {column row maxRow : Int} {frac : Int → Int → K} :
    ∀ {cols : List Int} {s s' : CsState K}, csColumns minF charge room' column row maxRow frac cols s = .ok s' → s'.hits.length ≤ room →
      csColumns minF charge room column row maxRow frac cols s = .ok s' := by
  intro cols
  induction cols with
  | nil =>
    intro s s' h hl
    exact h
  | cons c cs ih =>
    intro s s' h hl
    unfold csColumns at h ⊢
    split_ifs at h with h1
    · rw [if_pos h1]
      exact h
    · rw [if_neg h1]
      split at h
      · cases h
      · next s1 e1 =>
        split at h
        · cases h
        · next s2 e2 =>
          have g2 := csColumns_grow h
          have g1 := csRows_grow e2
          rw [csRows_more e1 (by omega)]
          dsimp only
          rw [csRows_more e2 (by omega)]
          exact ih h hl

theorem createCs_more {minF charge : K} {room room' : Nat} {column row maxColumn maxRow : Int} {frac : Int → Int → K} {hits : List (PixelHit K)}
    (h : createCs minF charge room' column row maxColumn maxRow frac = .ok hits) (hl : hits.length ≤ room) :
    createCs minF charge room column row maxColumn maxRow frac = .ok hits := by
  unfold createCs at h ⊢
  split at h
  · cases h
  · next s e =>
    split at h
    · cases h
    · next s2 e2 =>
      cases h
      have := csColumns_grow e2
      rw [csColumns_more e (by omega)]
      dsimp only
      rw [csColumns_more e2 hl]

theorem addCs_more {minF : K} {mc mr : Int} {frac : K → K → Int → Int → K} {size size' : Nat} : ∀ {ss : List (Seed K)} {used : Nat}
    {l : List (Int × PixelHit K)}, addCs minF mc mr frac size' used ss = .ok l → used + l.length ≤ size →
      addCs minF mc mr frac size used ss = .ok l := by
  intro ss
  induction ss with
  | nil =>
    intro used l h _
    exact h
  | cons s ss ih =>
    intro used l h hu
    unfold addCs at h ⊢
    split at h
    · cases h
    · next hits e =>
      split at h
      · cases h
      · next rest e2 =>
        cases h
        rw [List.length_append, List.length_map] at hu
        rw [createCs_more e (by omega)]
        dsimp only
        rw [ih e2 (by omega)]

end

/-! ### Angles -/

theorem redraw_keep (s : Settings) (high low t : ℝ) (h0 : 0 ≤ t) (h1 : t ≤ Real.pi) : redraw s high low t = t := by
  unfold redraw
  dsimp only
  rw [if_neg (not_lt.mpr h1), if_neg (not_lt.mpr h0)]

theorem thetaLoop_keep {s : Settings} {g : TrackRandom} : ∀ {left round : Nat} {thetas out : List ℝ},
    thetaLoop s g left round thetas = .ok out → ∀ (i : Nat) (t : ℝ), thetas[i]? = some t → 0 ≤ t → t ≤ Real.pi → out[i]? = some t := by
  intro left
  induction left with
  | zero =>
    intro round thetas out h i t hi h0 h1
    unfold thetaLoop at h
    split_ifs at h
    cases h
    exact hi
  | succ k ih =>
    intro round thetas out h i t hi h0 h1
    unfold thetaLoop at h
    split_ifs at h
    · refine ih h i t ?_ h0 h1
      rw [List.getElem?_map, List.getElem?_zipIdx, hi]
      simp only [Option.map_some]
      rw [redraw_keep s _ _ t h0 h1]
    · cases h
      exact hi

/-! ### Scattering -/

theorem scatter_ok {theta0 : ℝ} {u v : Nat → ℝ} {angles : List (ℝ × ℝ)} {dirs : List Vec3} {out : List (ℝ × ℝ)}
    (h : scatter theta0 u v angles dirs = .ok out) (hl : dirs.length = angles.length) (j : Nat) (d : Vec3) (hd : dirs[j]? = some d) :
    out[j]? = some ((cartesianToSpherical (d 0 + kick (2 * Real.pi * u j) |theta0 * v j| 0) (d 1 + kick (2 * Real.pi * u j) |theta0 * v j| 1) (d 2)).1,
      (cartesianToSpherical (d 0 + kick (2 * Real.pi * u j) |theta0 * v j| 0) (d 1 + kick (2 * Real.pi * u j) |theta0 * v j| 1) (d 2)).2.1) := by
  unfold scatter at h
  split at h
  · cases h
  · next ds e =>
    cases h
    unfold sphericalToCartesian at e
    split_ifs at e
    cases e
    have hj : j < angles.length := by
      have := (List.getElem?_eq_some_iff.mp hd).1
      omega
    have hk : (((List.range angles.length).map fun i => (0 + (2 * Real.pi - 0) * u i, |0 + theta0 * v i|, (1 : ℝ))).map fun p : ℝ × ℝ × ℝ =>
        (p.2.2 * Real.cos p.1 * Real.sin p.2.1, p.2.2 * Real.sin p.1 * Real.sin p.2.1, p.2.2 * Real.cos p.2.1))[j]? =
        some (kick (2 * Real.pi * u j) |theta0 * v j| 0, kick (2 * Real.pi * u j) |theta0 * v j| 1, Real.cos |theta0 * v j|) := by
      rw [List.map_map, List.getElem?_map, List.getElem?_range hj]
      simp [kick]
    rw [List.getElem?_map, show (dirs.zip _)[j]? = some (d, _) from List.getElem?_zip_eq_some.mpr ⟨hd, hk⟩]
    rfl

theorem spherical_dir (a b c : ℝ) (ha : a ≠ 0) :
    SameDirection ![Real.cos (cartesianToSpherical a b c).1 * Real.sin (cartesianToSpherical a b c).2.1,
      Real.sin (cartesianToSpherical a b c).1 * Real.sin (cartesianToSpherical a b c).2.1, Real.cos (cartesianToSpherical a b c).2.1] ![a, b, c] := by
  obtain ⟨-, -, h0, h1, h2, h3⟩ := BTA.Props.spherical_spec a b c ha
  refine ⟨((cartesianToSpherical a b c).2.2)⁻¹, inv_pos.mpr h0, ?_⟩
  have hr := h0.ne'
  generalize (cartesianToSpherical a b c).2.2 = r at *
  generalize (cartesianToSpherical a b c).2.1 = t at *
  generalize (cartesianToSpherical a b c).1 = p at *
  subst h1 h2 h3
  ext i
  fin_cases i <;> simp <;> field_simp

theorem scatteringSigma_eq {momentum material : ℝ} (h : material ≠ 0) : scatteringSigma momentum material = highland momentum material := by
  unfold scatteringSigma highland
  rw [if_neg h, mul_one]

/-- Direction vector of angles. -/
noncomputable def dirOf (a : ℝ × ℝ) : Vec3 := ![Real.cos a.1 * Real.sin a.2, Real.sin a.1 * Real.sin a.2, Real.cos a.2]

theorem hitLoop_path {momentum : ℝ} {u v : Nat → Nat → ℝ} : ∀ {ps : List Plane} {i : Nat} {origins : List Vec3} {angles : List (ℝ × ℝ)}
    {out : List (List Vec3)}, origins.length = angles.length → hitLoop momentum u v i ps origins angles = .ok out →
      ∀ (j : Nat) (o : Vec3) (a : ℝ × ℝ), origins[j]? = some o → angles[j]? = some a →
        ∃ path : List Vec3, path.map some = out.map (fun l => l[j]?) ∧
          Path momentum (fun k => u k j) (fun k => v k j) i (ps.map Plane.material) o (dirOf a) path := by
  intro ps
  induction ps with
  | nil =>
    intro i origins angles out hl h j o a ho ha
    cases h
    exact ⟨[], rfl, rfl⟩
  | cons p ps ih =>
    intro i origins angles out hl h j o a ho ha
    unfold hitLoop at h
    split at h
    · cases h
    · next dirs e1 =>
      split at h
      · cases h
      · next hits e2 =>
        split at h
        · cases h
        · next angles' e3 =>
          split at h
          · cases h
          · next rest e4 =>
            cases h
            have hd := directions_ok e1
            have hdl : dirs.length = angles.length := by rw [hd, List.length_map]
            obtain ⟨a1, a2⟩ := planeHits_ok e2 (by rw [hl, hdl])
            have hda : dirs[j]? = some (dirOf a) := by
              rw [hd, List.getElem?_map, ha]
              rfl
            have hjl : j < origins.length := (List.getElem?_eq_some_iff.mp ho).1
            have hj0 : hits[j]? = some (hits[j]'(by omega)) := List.getElem?_eq_getElem (by omega)
            have first := (a2 j o _ _ ho hda hj0).1
            by_cases hlast : ps = []
            · subst hlast
              cases e4
              refine ⟨[hits[j]'(by omega)], ?_, ?_⟩
              · rw [List.map_cons, List.map_cons, hj0]
                rfl
              · by_cases hm : p.material = 0
                · exact ⟨_, [], dirOf a, rfl, first, fun _ => rfl, fun h => absurd hm h, rfl⟩
                · exact ⟨_, [], dirOf a + kick (2 * Real.pi * u i j) |highland momentum p.material * v i j|, rfl, first, fun h => absurd h hm,
                    fun _ _ => ⟨1, one_pos, by rw [one_smul]⟩, rfl⟩
            · split_ifs at e3 with hm
              · have hs := scatter_ok e3 hdl j _ hda
                have hal := scatter_length e3 hdl
                obtain ⟨path, b1, b2⟩ := ih (by rw [a1, hal, hl]) e4 j _ _ hj0 hs
                refine ⟨_ :: path, by rw [List.map_cons, List.map_cons, hj0, b1], ?_⟩
                refine ⟨_, path, _, rfl, first, fun h => absurd h hm.1, fun _ hx => ?_, b2⟩
                rw [scatteringSigma_eq hm.1]
                have := spherical_dir _ (dirOf a 1 + kick (2 * Real.pi * u i j) |highland momentum p.material * v i j| 1) (dirOf a 2) hx
                have hvec : dirOf a + kick (2 * Real.pi * u i j) |highland momentum p.material * v i j| =
                    ![dirOf a 0 + kick (2 * Real.pi * u i j) |highland momentum p.material * v i j| 0,
                      dirOf a 1 + kick (2 * Real.pi * u i j) |highland momentum p.material * v i j| 1, dirOf a 2] := by
                  ext k
                  fin_cases k
                  · rfl
                  · rfl
                  · show dirOf a 2 + 0 = dirOf a 2
                    rw [add_zero]
                rw [hvec]
                exact this
              · cases e3
                have hm0 : p.material = 0 := by
                  by_contra hne
                  exact hm ⟨hne, hlast⟩
                obtain ⟨path, b1, b2⟩ := ih (by rw [a1, hl]) e4 j _ _ hj0 ha
                refine ⟨_ :: path, by rw [List.map_cons, List.map_cons, hj0, b1], ?_⟩
                exact ⟨_, path, _, rfl, first, fun _ => rfl, fun h => absurd hm0 h, b2⟩

theorem planes_material {s : Settings} {ps : List Plane} (h : planes s 0 s.zPositions = .ok ps) :
    ps.map Plane.material = s.dutMaterialBudget.take s.zPositions.length := by
  have hl := planes_length h
  apply List.ext_getElem?
  intro k
  by_cases hk : k < ps.length
  · have hpk : ps[k]? = some (ps[k]'hk) := List.getElem?_eq_getElem hk
    obtain ⟨z, o, r, m, c1, c2, c3, c4, c5⟩ := planes_get h k _ hpk
    rw [Nat.zero_add] at c4
    rw [List.getElem?_map, hpk, List.getElem?_take, if_pos (by omega), c4, c5]
    rfl
  · rw [List.getElem?_eq_none (by rw [List.length_map]; omega), List.getElem?_eq_none (by rw [List.length_take]; omega)]

/-! ### Threshold and charge -/

/-- The digits of a chunk on a DUT come from `digitize` with the settings of this DUT. -/
theorem createData_get {erf : ℝ → ℝ} {s : Settings} {d : Draws} {start : Int} {n : Nat} {data : List (List (Digit ℝ))}
    (h : createData erf s d start n = .ok data) (k : Nat) (ds : List (Digit ℝ)) (hk : data[k]? = some ds) :
    ∃ tracks hits p l r w b, createTracks s d.tracks (trackEvents start (trackCounts d.counts n)).length = .ok tracks ∧
      createHits s d.scatterU d.scatterV tracks = .ok hits ∧ planeAt s k p.z = .ok p ∧ s.zPositions[k]? = some p.z ∧
      (shuffleAll s.shuffle d.shuffle (trackEvents start (trackCounts d.counts n)) (trackMultiplicity (trackCounts d.counts n)) hits)[k]? = some l ∧
      responseAt s k = .ok (r, w, b) ∧
      digitize 1e-2 s.discretization s.chargeSharing (sharingFraction erf r.sizeX r.sizeY w s.temperature b) r (d.dut k)
          (((trackEvents start (trackCounts d.counts n)).zip l).map fun q => ⟨q.1, toLocal p q.2 0, toLocal p q.2 1⟩) = .ok ds := by
  unfold createData at h
  dsimp only at h
  split at h
  · cases h
  · next tracks e0 =>
    split at h
    · cases h
    · next hits e1 =>
      split at h
      · cases h
      · next ps e =>
        obtain ⟨p, hh, r, w, b, c1, c2, c3, c4⟩ := digitizeAll_get h k ds hk
        rw [Nat.zero_add] at c3 c4
        obtain ⟨z, o, ro, m, d1, d2, d3, d4, d5⟩ := planes_get e k _ c1
        rw [Nat.zero_add] at d2 d3 d4
        refine ⟨tracks, hits, p, hh, r, w, b, e0, e1, ?_, ?_, c2, c3, c4⟩
        · unfold planeAt
          rw [d2, d3, d4, d5]
        · rw [d1, d5]

theorem responseAt_ok {s : Settings} {k : Nat} {r : Response ℝ} {w b : ℝ} (h : responseAt s k = .ok (r, w, b)) :
    s.dutThreshold[k]? = some r.threshold ∧ s.dutNoise[k]? = some r.noise ∧ s.dutPixelSize[k]? = some (r.sizeX, r.sizeY) ∧
      s.dutNPixel[k]? = some (r.columns, r.rows) ∧ s.dutEfficiencies[k]? = some r.efficiency ∧ s.dutThickness[k]? = some w ∧ s.dutBias[k]? = some b := by
  unfold responseAt at h
  split at h
  · next h1 h2 h3 h4 h5 h6 h7 =>
    cases h
    exact ⟨h1, h2, h3, h4, h5, h6, h7⟩
  · cases h

end BTA.Sim
