import Verif.Lemmas.ChargeSharing
import Verif.Lemmas.Shuffle
import Verif.Props.Geometry
/-
Lemmas about tracks, hits and the storage of simulated data.
-/
namespace BTA.Sim
open Spec BTA.Geo BTA.Spec

/-! ### Tracks -/

theorem thetaLoop_ok {s : Settings} {g : TrackRandom} : ∀ {left round : Nat} {thetas out : List ℝ},
    thetaLoop s g left round thetas = .ok out → out.length = thetas.length ∧ ∀ t ∈ out, 0 ≤ t ∧ t ≤ Real.pi := by
  intro left
  induction left with
  | zero =>
    intro round thetas out h
    unfold thetaLoop at h
    split_ifs at h with h1
    cases h
    refine ⟨rfl, fun t ht => ?_⟩
    rw [Bool.or_eq_true, not_or, List.any_eq_true, List.any_eq_true] at h1
    push Not at h1
    exact ⟨not_lt.mp (by simpa using h1.2 t ht), not_lt.mp (by simpa using h1.1 t ht)⟩
  | succ k ih =>
    intro round thetas out h
    unfold thetaLoop at h
    split_ifs at h with h1
    · obtain ⟨h2, h3⟩ := ih h
      refine ⟨?_, h3⟩
      rw [h2, List.length_map, List.length_zipIdx]
    · cases h
      refine ⟨rfl, fun t ht => ?_⟩
      rw [Bool.or_eq_true, not_or, List.any_eq_true, List.any_eq_true] at h1
      push Not at h1
      exact ⟨not_lt.mp (by simpa using h1.2 t ht), not_lt.mp (by simpa using h1.1 t ht)⟩

theorem createTracks_ok {s : Settings} {g : TrackRandom} {n : Nat} {tracks : List Track} (h : createTracks s g n = .ok tracks) :
    tracks.length = n ∧ ∀ (i : Nat) (t : Track), tracks[i]? = some t →
      t.x = trackX s g i ∧ t.y = trackY s g i ∧ t.phi = trackPhi s g i ∧ 0 ≤ t.theta ∧ t.theta ≤ Real.pi := by
  unfold createTracks at h
  split_ifs at h with h0
  split at h
  · cases h
  · next thetas e =>
    cases h
    obtain ⟨h1, h2⟩ := thetaLoop_ok e
    refine ⟨by rw [List.length_map, List.length_zipIdx, h1, List.length_map, List.length_range], fun i t ht => ?_⟩
    rw [List.getElem?_map, List.getElem?_zipIdx, Option.map_map] at ht
    obtain ⟨a, ha, rfl⟩ := Option.map_eq_some_iff.mp ht
    obtain ⟨b1, b2⟩ := h2 a (List.mem_of_getElem? ha)
    refine ⟨?_, ?_, ?_, b1, b2⟩ <;> simp

/-! ### Hits -/

theorem directions_ok {angles : List (ℝ × ℝ)} {dirs : List Vec3} (h : directions angles = .ok dirs) :
    dirs = angles.map fun a => ![Real.cos a.1 * Real.sin a.2, Real.sin a.1 * Real.sin a.2, Real.cos a.2] := by
  unfold directions at h
  split at h
  · cases h
  · next l e =>
    cases h
    unfold sphericalToCartesian at e
    split_ifs at e
    cases e
    rw [List.map_map, List.map_map]
    refine List.map_congr_left fun a _ => ?_
    simp

theorem toLocal_eq (p : Plane) (h : Vec3) : toLocal p h = (rotationMatrix p.alpha p.beta p.gamma).transpose.mulVec (h - ![p.x, p.y, p.z]) := by
  unfold toLocal
  rw [apply_globalToLocal]

/-- A point is on the plane of the DUT, if and only if its local z position is zero. -/
theorem onPlane_local (p : Plane) (h : Vec3) : OnPlane ![p.x, p.y, p.z] (planeNormalOf p) h ↔ toLocal p h 2 = 0 := by
  rw [toLocal_eq]
  unfold OnPlane planeNormalOf
  rw [mul_one]
  have : dot ((rotationMatrix p.alpha p.beta p.gamma).transpose 2) (h - ![p.x, p.y, p.z]) =
      ((rotationMatrix p.alpha p.beta p.gamma).transpose.mulVec (h - ![p.x, p.y, p.z])) 2 := by
    simp only [dot, Matrix.mulVec, dotProduct, Fin.sum_univ_three]
  rw [this]

theorem planeHits_ok {p : Plane} {origins dirs hits : List Vec3} (h : planeHits p origins dirs = .ok hits) (hl : origins.length = dirs.length) :
    hits.length = origins.length ∧ ∀ (j : Nat) (o d q : Vec3), origins[j]? = some o → dirs[j]? = some d → hits[j]? = some q →
      OnLine o d q ∧ toLocal p q 2 = 0 ∧ ∀ q', OnLine o d q' → toLocal p q' 2 = 0 → q' = q := by
  unfold planeHits at h
  split at h
  · cases h
  · next l e =>
    cases h
    obtain ⟨h1, h2⟩ := BTA.Props.C33_intersection _ _ _ _ e
    refine ⟨by rw [h1, List.length_zip, hl, Nat.min_self], fun j o d q ho hd hq => ?_⟩
    obtain ⟨a1, a2, a3⟩ := h2 j (o, d) q (by
      rw [List.getElem?_zip_eq_some]
      exact ⟨ho, hd⟩) hq
    refine ⟨a1, (onPlane_local p q).mp a2, fun q' b1 b2 => a3 q' b1 ((onPlane_local p q').mpr b2)⟩

theorem scatter_length {theta0 : ℝ} {u v : Nat → ℝ} {angles : List (ℝ × ℝ)} {dirs : List Vec3} {out : List (ℝ × ℝ)}
    (h : scatter theta0 u v angles dirs = .ok out) (hl : dirs.length = angles.length) : out.length = angles.length := by
  unfold scatter at h
  split at h
  · cases h
  · next ds e =>
    cases h
    unfold sphericalToCartesian at e
    split_ifs at e
    cases e
    rw [List.length_map, List.length_zip, List.length_map, List.length_map, List.length_range, hl, Nat.min_self]

/-- All hits are on their planes. -/
theorem hitLoop_planes {momentum : ℝ} {u v : Nat → Nat → ℝ} : ∀ {ps : List Plane} {i : Nat} {origins : List Vec3} {angles : List (ℝ × ℝ)}
    {out : List (List Vec3)}, origins.length = angles.length → hitLoop momentum u v i ps origins angles = .ok out →
      out.length = ps.length ∧ ∀ (k : Nat) (p : Plane) (hits : List Vec3), ps[k]? = some p → out[k]? = some hits →
        hits.length = origins.length ∧ ∀ q ∈ hits, toLocal p q 2 = 0 := by
  intro ps
  induction ps with
  | nil =>
    intro i origins angles out hl h
    cases h
    exact ⟨rfl, fun k p hits hk => by simp at hk⟩
  | cons p ps ih =>
    intro i origins angles out hl h
    unfold hitLoop at h
    split at h
    · cases h
    · next dirs e1 =>
      split at h
      · cases h
      · next hits e2 =>
        split at h
        · cases h
        · next angles' e3 =>
          split at h
          · cases h
          · next rest e4 =>
            cases h
            have hd : dirs.length = angles.length := by rw [directions_ok e1, List.length_map]
            obtain ⟨a1, a2⟩ := planeHits_ok e2 (by rw [hl, hd])
            have ha : angles'.length = angles.length := by
              split_ifs at e3
              · exact scatter_length e3 hd
              · cases e3
                rfl
            obtain ⟨b1, b2⟩ := ih (by rw [a1, ha, hl]) e4
            refine ⟨by rw [List.length_cons, List.length_cons, b1], fun k p' hits' hk hk' => ?_⟩
            cases k with
            | zero =>
              have e5 : p = p' := by simpa using hk
              have e6 : hits = hits' := by simpa using hk'
              subst e5
              subst e6
              refine ⟨a1, fun q hq => ?_⟩
              obtain ⟨j, hj⟩ := List.mem_iff_getElem?.mp hq
              have hjl : j < hits.length := (List.getElem?_eq_some_iff.mp hj).1
              exact (a2 j _ _ q (List.getElem?_eq_getElem (by omega)) (List.getElem?_eq_getElem (by omega)) hj).2.1
            | succ k =>
              obtain ⟨c1, c2⟩ := b2 k p' hits' (by simpa using hk) (by simpa using hk')
              exact ⟨by rw [c1, a1], c2⟩

theorem onLine_trans {o d q r : Vec3} (h1 : OnLine o d q) (h2 : OnLine q d r) : OnLine o d r := by
  obtain ⟨s, rfl⟩ := h1
  obtain ⟨t, rfl⟩ := h2
  exact ⟨s + t, by rw [add_smul, add_assoc]⟩

/-- Without material the hits are on straight lines. -/
theorem hitLoop_lines {momentum : ℝ} {u v : Nat → Nat → ℝ} : ∀ {ps : List Plane} {i : Nat} {origins : List Vec3} {angles : List (ℝ × ℝ)}
    {out : List (List Vec3)}, origins.length = angles.length → (∀ p ∈ ps, p.material = 0) → hitLoop momentum u v i ps origins angles = .ok out →
      ∀ (k j : Nat) (o : Vec3) (a : ℝ × ℝ) (hits : List Vec3) (q : Vec3), origins[j]? = some o → angles[j]? = some a → out[k]? = some hits →
        hits[j]? = some q → OnLine o ![Real.cos a.1 * Real.sin a.2, Real.sin a.1 * Real.sin a.2, Real.cos a.2] q := by
  intro ps
  induction ps with
  | nil =>
    intro i origins angles out hl hm h k j o a hits q _ _ hk
    cases h
    simp at hk
  | cons p ps ih =>
    intro i origins angles out hl hm h k j o a hits q ho ha hk hq
    unfold hitLoop at h
    split at h
    · cases h
    · next dirs e1 =>
      split at h
      · cases h
      · next hits0 e2 =>
        rw [if_neg (by
          rintro ⟨h1, _⟩
          exact h1 (hm p (List.mem_cons_self ..)))] at h
        dsimp only at h
        split at h
        · cases h
        · next rest e4 =>
          cases h
          have hd := directions_ok e1
          have hdl : dirs.length = angles.length := by rw [hd, List.length_map]
          obtain ⟨a1, a2⟩ := planeHits_ok e2 (by rw [hl, hdl])
          have hda : dirs[j]? = some ![Real.cos a.1 * Real.sin a.2, Real.sin a.1 * Real.sin a.2, Real.cos a.2] := by
            rw [hd, List.getElem?_map, ha]
            rfl
          cases k with
          | zero =>
            have e6 : hits0 = hits := by simpa using hk
            subst e6
            exact (a2 j o _ q ho hda hq).1
          | succ k =>
            have hjl : j < origins.length := (List.getElem?_eq_some_iff.mp ho).1
            have hj0 : hits0[j]? = some (hits0[j]'(by omega)) := List.getElem?_eq_getElem (by omega)
            have first := (a2 j o _ _ ho hda hj0).1
            have := ih (by rw [a1, hl]) (fun p hp => hm p (List.mem_cons_of_mem _ hp)) e4 k j _ a hits q hj0 ha (by simpa using hk) hq
            exact onLine_trans first this

theorem planes_length {s : Settings} : ∀ {zs : List ℝ} {i : Nat} {ps : List Plane}, planes s i zs = .ok ps → ps.length = zs.length := by
  intro zs
  induction zs with
  | nil =>
    intro i ps h
    cases h
    rfl
  | cons z zs ih =>
    intro i ps h
    unfold planes at h
    split at h
    · cases h
    · split at h
      · cases h
      · next rest e =>
        cases h
        rw [List.length_cons, List.length_cons, ih e]

theorem planes_get {s : Settings} : ∀ {zs : List ℝ} {i : Nat} {ps : List Plane}, planes s i zs = .ok ps → ∀ (k : Nat) (p : Plane),
    ps[k]? = some p → ∃ z o r m, zs[k]? = some z ∧ s.offsets[i + k]? = some o ∧ s.rotations[i + k]? = some r ∧
      s.dutMaterialBudget[i + k]? = some m ∧ p = ⟨o.1, o.2, z, r.1, r.2.1, r.2.2, m⟩ := by
  intro zs
  induction zs with
  | nil =>
    intro i ps h k p hk
    cases h
    simp at hk
  | cons z zs ih =>
    intro i ps h k p hk
    unfold planes at h
    split at h
    · cases h
    · next p0 e0 =>
      split at h
      · cases h
      · next rest e =>
        cases h
        cases k with
        | zero =>
          have e6 : p0 = p := by simpa using hk
          subst e6
          unfold planeAt at e0
          split at e0
          · next o r m h1 h2 h3 =>
            cases e0
            exact ⟨z, o, r, m, rfl, h1, h2, h3, rfl⟩
          · cases e0
        | succ k =>
          obtain ⟨z', o, r, m, h1, h2, h3, h4, h5⟩ := ih e k p (by simpa using hk)
          rw [show i + 1 + k = i + (k + 1) by omega] at h2 h3 h4
          exact ⟨z', o, r, m, by simpa using h1, h2, h3, h4, h5⟩

/-! ### Data -/

theorem digitizeAll_length {erf : ℝ → ℝ} {s : Settings} {g : Nat → Random ℝ} {events : List Int} : ∀ {ps : List Plane} {i : Nat}
    {hits : List (List Vec3)} {out : List (List (Digit ℝ))}, digitizeAll erf s g events i ps hits = .ok out → out.length ≤ ps.length := by
  intro ps
  induction ps with
  | nil =>
    intro i hits out h
    cases hits <;> · unfold digitizeAll at h; cases h; simp
  | cons p ps ih =>
    intro i hits out h
    cases hits with
    | nil => unfold digitizeAll at h; cases h; simp
    | cons a hits =>
      unfold digitizeAll at h
      split at h
      · cases h
      · split at h
        · cases h
        · split at h
          · cases h
          · next ds e =>
            cases h
            have := ih e
            simpa using this

/-- The digits of one DUT come from its hits and its settings. -/
theorem digitizeAll_get {erf : ℝ → ℝ} {s : Settings} {g : Nat → Random ℝ} {events : List Int} : ∀ {ps : List Plane} {i : Nat}
    {hits : List (List Vec3)} {out : List (List (Digit ℝ))}, digitizeAll erf s g events i ps hits = .ok out → ∀ (k : Nat) (ds : List (Digit ℝ)),
      out[k]? = some ds → ∃ p h r w b, ps[k]? = some p ∧ hits[k]? = some h ∧ responseAt s (i + k) = .ok (r, w, b) ∧
        digitize 1e-2 s.discretization s.chargeSharing (sharingFraction erf r.sizeX r.sizeY w s.temperature b) r (g (i + k))
          ((events.zip h).map fun q => ⟨q.1, toLocal p q.2 0, toLocal p q.2 1⟩) = .ok ds := by
  intro ps
  induction ps with
  | nil =>
    intro i hits out h k ds hk
    cases hits <;> · unfold digitizeAll at h; cases h; simp at hk
  | cons p ps ih =>
    intro i hits out h k ds hk
    cases hits with
    | nil => unfold digitizeAll at h; cases h; simp at hk
    | cons a hits =>
      unfold digitizeAll at h
      split at h
      · cases h
      · next r w b e1 =>
        split at h
        · cases h
        · next d e2 =>
          split at h
          · cases h
          · next dd e3 =>
            cases h
            cases k with
            | zero =>
              have : d = ds := by simpa using hk
              subst this
              exact ⟨p, a, r, w, b, rfl, rfl, e1, e2⟩
            | succ k =>
              obtain ⟨p', h', r', w', b', c1, c2, c3, c4⟩ := ih e3 k ds (by simpa using hk)
              rw [show i + 1 + k = i + (k + 1) by omega] at c3 c4
              exact ⟨p', h', r', w', b', by simpa using c1, by simpa using c2, c3, c4⟩

theorem zip_events {H : Type} (events : List Int) (h : List H) (f : Int × H → TrackHit ℝ) (hf : ∀ q, (f q).event = q.1) :
    List.Sublist (((events.zip h).map f).map TrackHit.event) events := by
  rw [List.map_map]
  have : (TrackHit.event ∘ f) = Prod.fst := funext hf
  rw [this]
  clear this hf
  induction events generalizing h with
  | nil => simp
  | cons e es ih =>
    cases h with
    | nil => simp
    | cons x h => exact (ih h).cons_cons e

/-- The data of a chunk. -/
theorem createData_ok {erf : ℝ → ℝ} {s : Settings} {d : Draws} {start : Int} {n : Nat} {data : List (List (Digit ℝ))}
    (h : createData erf s d start n = .ok data) :
    data.length ≤ s.zPositions.length ∧ ∀ (k : Nat) (ds : List (Digit ℝ)), data[k]? = some ds →
      (∀ x ∈ ds, start ≤ x.event ∧ x.event < start + n) ∧ Ordered ds ∧
      (s.discretization = true → ∃ c, s.dutNPixel[k]? = some c ∧ ∀ x ∈ ds, (∃ i : Int, x.column = i ∧ 1 ≤ i ∧ i ≤ c.1) ∧
        ∃ i : Int, x.row = i ∧ 1 ≤ i ∧ i ≤ c.2) := by
  unfold createData at h
  dsimp only at h
  split at h
  · cases h
  · split at h
    · cases h
    · split at h
      · cases h
      · next ps e =>
        refine ⟨by rw [← planes_length e]; exact digitizeAll_length h, fun k ds hk => ?_⟩
        obtain ⟨p, hh, r, w, b, _, _, c3, c4⟩ := digitizeAll_get h k ds hk
        rw [Nat.zero_add] at c3 c4
        obtain ⟨a1, a2, a3⟩ := digitize_ok c4
        have hsub := zip_events (trackEvents start (trackCounts d.counts n)) hh (fun q => ⟨q.1, toLocal p q.2 0, toLocal p q.2 1⟩) (fun _ => rfl)
        rw [eventsFrom_eq] at hsub
        refine ⟨fun x hx => ?_, a2 ?_, fun hdisc => ?_⟩
        · obtain ⟨t, ht, h2⟩ := a1 x hx
          have h3 := hsub.subset (List.mem_map_of_mem (f := TrackHit.event) (by rw [eventsFrom_eq] at ht; exact ht))
          have h4 := eventsFrom_ge _ _ _ h3
          unfold trackCounts at h4
          rw [List.length_map, List.length_range] at h4
          rw [h2]
          exact h4
        · rw [eventsFrom_eq]
          exact (eventsFrom_sorted _ _).sublist hsub
        · unfold responseAt at c3
          split at c3
          · next h4 _ _ _ =>
            cases c3
            exact ⟨_, h4, fun x hx => a3 hdisc x hx⟩
          · cases c3

end BTA.Sim
