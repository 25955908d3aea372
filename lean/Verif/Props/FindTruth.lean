import Verif.Lemmas.FindTruth
import Verif.Model.RealFloats
import Verif.Props.FindFile
import Mathlib.Analysis.InnerProductSpace.PiL2
/-
C178: separated tracks are found.
-/
namespace BTA.Find.Props
open BTA.Find

variable {F : Type}

/-- C178: if the hits of an event come from separated tracks (see `Separated`), then after the track finding every row has exactly the hits of its track, whatever the order of the
hits in the input. -/
theorem C178_separated (S : Setup F) (O : OrderedFloats S.fl) (hn : S.zs.Nodup) (m : Nat) (x y z : Nat → Nat → F) (own : Nat → Nat → Nat) (f : Nat) (ds : List Nat)
    (H : Separated S m x y z own f ds) (hm : S.ev.length = m) (a : Int) (hev : ∀ e ∈ S.ev, e = a) :
    ∃ t, runFindTracks S x y z = some t ∧ ∀ r < m, ∀ d ∈ S.zs,
      (trackHit S x own r d = true → t.idx r d = own d r ∧ t.x r d = x (own d r) d ∧ t.y r d = y (own d r) d ∧ t.z r d = z (own d r) d) ∧
      (trackHit S x own r d = false → S.fl.isnan (t.x r d) = true) := by
  obtain ⟨t, h1, h2, h3, h4⟩ := findLoop_truth O H hn hm a (fun q hq => by
    rw [List.getElem?_eq_getElem hq, hev _ (List.getElem_mem hq)])
  refine ⟨t, h1, ?_⟩
  intro r hr d hd
  have hi : trackHit S x own r d = true → t.idx r d = own d r := by
    intro hh
    rw [H.zs] at hd
    rcases List.mem_cons.mp hd with rfl | hd
    · rw [h3 r hr, H.first r hr]
    · exact (h4 d hd r hr).1 hh
  refine ⟨fun hh => ?_, fun hh => ?_⟩
  · have := hi hh
    exact ⟨this, by rw [h2.hx, this], by rw [h2.hy, this], by rw [h2.hz, this]⟩
  · rw [H.zs] at hd
    rcases List.mem_cons.mp hd with rfl | hd
    · rw [H.hit_zs r hr] at hh; cases hh
    · exact (h4 d hd r hr).2 hh

/-- C178: there is no cut on the distance. The hits of an event with one row stay together, however far apart they are; so a track without hit in the first DUT can be joined
with the hits of another track. -/
theorem C178_no_cut (S : Setup F) (hn : S.zs.Nodup) (x y z : Nat → Nat → F) (hm : S.ev.length = 1) :
    ∃ t, runFindTracks S x y z = some t ∧ ∀ d, t.idx 0 d = 0 ∧ t.x 0 d = x 0 d ∧ t.y 0 d = y 0 d ∧ t.z 0 d = z 0 d := by
  obtain ⟨t, σ, h1, hp, -⟩ := findLoop_spec S hn (-1) 0 ⟨x, y, z, fun r _ => r⟩
  refine ⟨t, h1, fun d => ?_⟩
  have h0 : σ d 0 = 0 := by
    have := hp.event 0 d
    rw [List.getElem?_eq_getElem (l := S.ev) (i := 0) (by omega)] at this
    have := (List.getElem?_eq_some_iff.mp this).1
    omega
  exact ⟨by rw [hp.idx, h0], by rw [hp.x, h0], by rw [hp.y, h0], by rw [hp.z, h0]⟩

/-! ### Exact numbers -/

theorem realFloats_ordered : OrderedFloats realFloats := by
  refine ⟨?_, ?_⟩
  · intro a b h
    cases a with
    | none => simp [realFloats] at h
    | some a =>
      cases b with
      | none => simp [realFloats] at h
      | some b =>
        simp only [realFloats, decide_eq_true_eq, decide_eq_false_iff_not] at h ⊢
        exact lt_asymm h
  · simp only [realFloats, decide_eq_false_iff_not]
    norm_num

/-- Distance of two points of a plane. -/
noncomputable def planeDist (p q : ℝ × ℝ) : ℝ := Real.sqrt ((p.1 - q.1) ^ 2 + (p.2 - q.2) ^ 2)

theorem planeDist_eq (p q : ℝ × ℝ) : planeDist p q = dist (WithLp.toLp 2 ![p.1, p.2]) (WithLp.toLp 2 ![q.1, q.2]) := by
  rw [EuclideanSpace.dist_eq, Fin.sum_univ_two]
  simp [planeDist, Real.dist_eq, sq_abs]

theorem planeDist_triangle (p q r : ℝ × ℝ) : planeDist p r ≤ planeDist p q + planeDist q r := by
  rw [planeDist_eq, planeDist_eq, planeDist_eq]
  exact dist_triangle _ _ _

theorem planeDist_comm (p q : ℝ × ℝ) : planeDist p q = planeDist q p := by
  rw [planeDist_eq, planeDist_eq, dist_comm]

theorem planeDist_nonneg (p q : ℝ × ℝ) : 0 ≤ planeDist p q := Real.sqrt_nonneg _

theorem distance_real (S : Setup (Option ℝ)) (hfl : S.fl = realFloats) (p q : ℝ × ℝ) :
    distance S (some p.1) (some p.2) (some q.1, some q.2) = some (planeDist p q) := by
  unfold distance planeDist
  rw [hfl]
  have : ¬ ((p.1 - q.1) * (p.1 - q.1) + (p.2 - q.2) * (p.2 - q.2) < 0) := not_lt.mpr (add_nonneg (mul_self_nonneg _) (mul_self_nonneg _))
  simp only [realFloats, Option.bind_some, Option.map_some, if_neg this, pow_two]

theorem separated_of_distance (S : Setup (Option ℝ)) (hfl : S.fl = realFloats) (m : Nat) (x y z : Nat → Nat → Option ℝ) (own : Nat → Nat → Nat) (f : Nat)
    (ds : List Nat) (hzs : S.zs = f :: ds)
    (range : ∀ d ∈ ds, ∀ a < m, own d a < m) (inj : ∀ d ∈ ds, ∀ a < m, ∀ b < m, own d a = own d b → a = b)
    (first : ∀ a < m, own f a = a) (hitFirst : ∀ a < m, (x a f).isSome = true)
    (R : ℝ) (P Q : Nat → Nat → ℝ × ℝ)
    (hP : ∀ d ∈ ds, ∀ a < m, (x (own d a) d).isSome = true → x (own d a) d = some (P a d).1 ∧ y (own d a) d = some (P a d).2)
    (hQ : ∀ d ∈ ds, ∀ a < m, expectedAt S x y z own f a d = (some (Q a d).1, some (Q a d).2))
    (hnear : ∀ d ∈ ds, ∀ a < m, (x (own d a) d).isSome = true → planeDist (P a d) (Q a d) < R)
    (hfar : ∀ d ∈ ds, ∀ a < m, ∀ b < m, a ≠ b → 2 * R ≤ planeDist (Q a d) (Q b d)) :
    Separated S m x y z own f ds := by
  have hsome : ∀ a d, trackHit S x own a d = true → (x (own d a) d).isSome = true := by
    intro a d h
    unfold trackHit at h
    rw [hfl] at h
    simp only [realFloats] at h
    cases hx : x (own d a) d with
    | none => rw [hx] at h; simp at h
    | some v => rfl
  have hd : ∀ d ∈ ds, ∀ a < m, trackHit S x own a d = true → ∀ b < m, hitDist S x y z own f a b d = some (planeDist (P a d) (Q b d)) := by
    intro d hd a ha hh b hb
    unfold hitDist
    rw [(hP d hd a ha (hsome a d hh)).1, (hP d hd a ha (hsome a d hh)).2, hQ d hd b hb, distance_real S hfl]
  refine ⟨hzs, range, inj, first, ?_, ?_, ?_, ?_⟩
  · intro a ha
    rw [hfl]
    have := hitFirst a ha
    simp only [realFloats]
    cases hx : x a f with
    | none => rw [hx] at this; cases this
    | some v => rfl
  · intro d hdd a ha hh
    rw [hd d hdd a ha hh a ha, hfl]
    simp only [realFloats, decide_eq_true_eq]
    exact planeDist_nonneg _ _
  · intro d hdd a ha hh b hb hba
    rw [hd d hdd a ha hh a ha, hd d hdd a ha hh b hb, hfl]
    simp only [realFloats, decide_eq_true_eq]
    have h1 := hnear d hdd a ha (hsome a d hh)
    have h2 := hfar d hdd a ha b hb (fun h => hba h.symm)
    have h3 := planeDist_triangle (Q a d) (P a d) (Q b d)
    rw [planeDist_comm (Q a d) (P a d)] at h3
    linarith
  · intro d hdd a ha hh b hb hba hhb
    rw [hd d hdd a ha hh a ha, hd d hdd b hb hhb a ha, hfl]
    simp only [realFloats, decide_eq_true_eq]
    have h1 := hnear d hdd a ha (hsome a d hh)
    have h1' := hnear d hdd b hb (hsome b d hhb)
    have h2 := hfar d hdd a ha b hb (fun h => hba h.symm)
    have h3 := planeDist_triangle (Q a d) (P b d) (Q b d)
    rw [planeDist_comm (Q a d) (P b d)] at h3
    linarith

/-- C178 with exact numbers: it is sufficient that each hit is within `R` of where its track is expected, and that on each DUT different tracks are expected at least `2 R` apart. -/
theorem C178_distance (S : Setup (Option ℝ)) (hfl : S.fl = realFloats) (hn : S.zs.Nodup) (m : Nat) (x y z : Nat → Nat → Option ℝ) (own : Nat → Nat → Nat) (f : Nat)
    (ds : List Nat) (hzs : S.zs = f :: ds) (hm : S.ev.length = m) (a : Int) (hev : ∀ e ∈ S.ev, e = a)
    (range : ∀ d ∈ ds, ∀ a < m, own d a < m) (inj : ∀ d ∈ ds, ∀ a < m, ∀ b < m, own d a = own d b → a = b)
    (first : ∀ a < m, own f a = a) (hitFirst : ∀ a < m, (x a f).isSome = true)
    (R : ℝ) (P Q : Nat → Nat → ℝ × ℝ)
    (hP : ∀ d ∈ ds, ∀ a < m, (x (own d a) d).isSome = true → x (own d a) d = some (P a d).1 ∧ y (own d a) d = some (P a d).2)
    (hQ : ∀ d ∈ ds, ∀ a < m, expectedAt S x y z own f a d = (some (Q a d).1, some (Q a d).2))
    (hnear : ∀ d ∈ ds, ∀ a < m, (x (own d a) d).isSome = true → planeDist (P a d) (Q a d) < R)
    (hfar : ∀ d ∈ ds, ∀ a < m, ∀ b < m, a ≠ b → 2 * R ≤ planeDist (Q a d) (Q b d)) :
    ∃ t, runFindTracks S x y z = some t ∧ ∀ r < m, ∀ d ∈ S.zs,
      (trackHit S x own r d = true → t.idx r d = own d r ∧ t.x r d = x (own d r) d ∧ t.y r d = y (own d r) d ∧ t.z r d = z (own d r) d) ∧
      (trackHit S x own r d = false → S.fl.isnan (t.x r d) = true) := by
  exact C178_separated S (by rw [hfl]; exact realFloats_ordered) hn m x y z own f ds
    (separated_of_distance S hfl m x y z own f ds hzs range inj first hitFirst R P Q hP hQ hnear hfar) hm a hev

/-! ### Straight tracks -/

/-- Scalar product. -/
def dot (a b : ℝ × ℝ × ℝ) : ℝ := a.1 * b.1 + a.2.1 * b.2.1 + a.2.2 * b.2.2

/-- Line through two points that crosses the plane: the extrapolation gives the crossing point. -/
theorem extrapolate_real (S : Setup (Option ℝ)) (hfl : S.fl = realFloats) (t : Tracks (Option ℝ)) (r d d1 d2 : Nat) (o n p v : ℝ × ℝ × ℝ) (l1 l2 l : ℝ)
    (ho : S.tr d = (some o.1, some o.2.1, some o.2.2)) (hn : S.nrm d = (some n.1, some n.2.1, some n.2.2))
    (h1 : (t.x r d1, t.y r d1, t.z r d1) = (some (p.1 + l1 * v.1), some (p.2.1 + l1 * v.2.1), some (p.2.2 + l1 * v.2.2)))
    (h2 : (t.x r d2, t.y r d2, t.z r d2) = (some (p.1 + l2 * v.1), some (p.2.1 + l2 * v.2.1), some (p.2.2 + l2 * v.2.2)))
    (hl : l1 ≠ l2) (hcross : dot n v ≠ 0)
    (hplane : dot n (p.1 + l * v.1 - o.1, p.2.1 + l * v.2.1 - o.2.1, p.2.2 + l * v.2.2 - o.2.2) = 0) :
    extrapolate S t r d d1 d2 = (some (p.1 + l * v.1), some (p.2.1 + l * v.2.1)) := by
  simp only [Prod.mk.injEq] at h1 h2
  obtain ⟨a1, a2, a3⟩ := h1
  obtain ⟨b1, b2, b3⟩ := h2
  unfold extrapolate
  simp only [a1, a2, a3, b1, b2, b3, ho, hn, hfl, realFloats, Option.bind_some, Option.map_some]
  unfold dot at hcross hplane
  dsimp only at hplane
  set k := l2 - l1 with hk
  have hk0 : k ≠ 0 := sub_ne_zero.mpr (Ne.symm hl)
  have e1 : p.1 + l2 * v.1 - (p.1 + l1 * v.1) = k * v.1 := by rw [hk]; ring
  have e2 : p.2.1 + l2 * v.2.1 - (p.2.1 + l1 * v.2.1) = k * v.2.1 := by rw [hk]; ring
  have e3 : p.2.2 + l2 * v.2.2 - (p.2.2 + l1 * v.2.2) = k * v.2.2 := by rw [hk]; ring
  rw [e1, e2, e3]
  set q := k * v.1 * (k * v.1) + k * v.2.1 * (k * v.2.1) + k * v.2.2 * (k * v.2.2) with hq
  have hq0 : 0 < q := by
    rcases lt_or_eq_of_le (show 0 ≤ q by rw [hq]; nlinarith [mul_self_nonneg (k * v.1), mul_self_nonneg (k * v.2.1), mul_self_nonneg (k * v.2.2)]) with h | h
    · exact h
    · exfalso
      apply hcross
      have g1 : k * v.1 = 0 := by nlinarith [mul_self_nonneg (k * v.1), mul_self_nonneg (k * v.2.1), mul_self_nonneg (k * v.2.2)]
      have g2 : k * v.2.1 = 0 := by nlinarith [mul_self_nonneg (k * v.1), mul_self_nonneg (k * v.2.1), mul_self_nonneg (k * v.2.2)]
      have g3 : k * v.2.2 = 0 := by nlinarith [mul_self_nonneg (k * v.1), mul_self_nonneg (k * v.2.1), mul_self_nonneg (k * v.2.2)]
      rw [(mul_eq_zero.mp g1).resolve_left hk0, (mul_eq_zero.mp g2).resolve_left hk0, (mul_eq_zero.mp g3).resolve_left hk0]
      ring
  rw [if_neg (not_lt.mpr hq0.le)]
  set L := Real.sqrt q with hL
  have hL0 : L ≠ 0 := (Real.sqrt_pos.mpr hq0).ne'
  simp only [Option.bind_some, if_neg hL0, Option.map_some]
  set D := n.1 * v.1 + n.2.1 * v.2.1 + n.2.2 * v.2.2 with hD
  have hden : n.1 * (k * v.1 / L) + n.2.1 * (k * v.2.1 / L) + n.2.2 * (k * v.2.2 / L) = D * (k / L) := by rw [hD]; ring
  have hden0 : D * (k / L) ≠ 0 := mul_ne_zero hcross (div_ne_zero hk0 hL0)
  rw [hden, if_neg hden0]
  simp only [Option.bind_some, Option.map_some]
  have hs : -(n.1 * (p.1 + l2 * v.1 - o.1) + n.2.1 * (p.2.1 + l2 * v.2.1 - o.2.1) + n.2.2 * (p.2.2 + l2 * v.2.2 - o.2.2)) = (l - l2) * D := by
    rw [hD]
    linear_combination -hplane
  rw [hs]
  have key : ∀ w : ℝ, (l - l2) * D / (D * (k / L)) * (k * w / L) = (l - l2) * w := by
    intro w
    field_simp
  rw [key, key]
  refine Prod.ext ?_ ?_
  · dsimp only; congr 1; ring
  · dsimp only; congr 1; ring

theorem separated_of_straight (S : Setup (Option ℝ)) (hfl : S.fl = realFloats) (hn : S.zs.Nodup) (m : Nat) (x y z : Nat → Nat → Option ℝ) (own : Nat → Nat → Nat) (f : Nat)
    (ds : List Nat) (hzs : S.zs = f :: ds)
    (range : ∀ d ∈ ds, ∀ a < m, own d a < m) (inj : ∀ d ∈ ds, ∀ a < m, ∀ b < m, own d a = own d b → a = b)
    (first : ∀ a < m, own f a = a) (hitFirst : ∀ a < m, (x a f).isSome = true)
    (o n : Nat → ℝ × ℝ × ℝ) (ho : ∀ d, S.tr d = (some (o d).1, some (o d).2.1, some (o d).2.2)) (hnrm : ∀ d, S.nrm d = (some (n d).1, some (n d).2.1, some (n d).2.2))
    (p v : Nat → ℝ × ℝ × ℝ) (l : Nat → Nat → ℝ)
    (hits : ∀ d ∈ S.zs, ∀ a < m, (x (own d a) d).isSome = true → (x (own d a) d, y (own d a) d, z (own d a) d) =
      (some ((p a).1 + l a d * (v a).1), some ((p a).2.1 + l a d * (v a).2.1), some ((p a).2.2 + l a d * (v a).2.2)))
    (hcross : ∀ d ∈ ds, ∀ a < m, dot (n d) (v a) ≠ 0)
    (hplane : ∀ d ∈ ds, ∀ a < m, dot (n d) ((p a).1 + l a d * (v a).1 - (o d).1, (p a).2.1 + l a d * (v a).2.1 - (o d).2.1, (p a).2.2 + l a d * (v a).2.2 - (o d).2.2) = 0)
    (hl : ∀ a < m, ∀ d ∈ S.zs, ∀ d' ∈ S.zs, d ≠ d' → l a d ≠ l a d') (R : ℝ) (hR : 0 < R)
    (hmove : ∀ d ∈ ds, ∀ a < m, planeDist ((p a).1 + l a f * (v a).1, (p a).2.1 + l a f * (v a).2.1) ((p a).1 + l a d * (v a).1, (p a).2.1 + l a d * (v a).2.1) < R)
    (hfar : ∀ d ∈ ds, ∀ a < m, ∀ b < m, a ≠ b → 4 * R ≤ planeDist ((p a).1 + l a d * (v a).1, (p a).2.1 + l a d * (v a).2.1) ((p b).1 + l b d * (v b).1, (p b).2.1 + l b d * (v b).2.1)) :
    Separated S m x y z own f ds := by
  have hsome : ∀ a d, trackHit S x own a d = true → (x (own d a) d).isSome = true := by
    intro a d h
    unfold trackHit at h
    rw [hfl] at h
    simp only [realFloats] at h
    cases hx : x (own d a) d with
    | none => rw [hx] at h; simp at h
    | some v => rfl
  let at' : Nat → Nat → ℝ × ℝ := fun a d => ((p a).1 + l a d * (v a).1, (p a).2.1 + l a d * (v a).2.1)
  have hexp : ∀ d ∈ ds, ∀ a < m, ∃ Q : ℝ × ℝ, expectedAt S x y z own f a d = (some Q.1, some Q.2) ∧ (Q = at' a d ∨ Q = at' a f) := by
    intro d hd a ha
    have hfirst : ∃ Q : ℝ × ℝ, (x a f, y a f) = (some Q.1, some Q.2) ∧ (Q = at' a d ∨ Q = at' a f) := by
      have := hits f (by rw [hzs]; simp) a ha (by rw [first a ha]; exact hitFirst a ha)
      rw [first a ha] at this
      simp only [Prod.mk.injEq] at this
      exact ⟨at' a f, by rw [this.1, this.2.1], .inr rfl⟩
    unfold expectedAt
    split
    next d2 d1 rest hrefs =>
      have hmem : ∀ e ∈ trackRefs S x own a d, e ∈ S.zs ∧ trackHit S x own a e = true := by
        intro e he
        unfold trackRefs at he
        rw [List.mem_reverse, List.mem_filter, Bool.and_eq_true] at he
        exact ⟨(List.takeWhile_sublist _).subset he.1, he.2.1⟩
      have hnd : (trackRefs S x own a d).Nodup := by
        unfold trackRefs
        exact List.nodup_reverse.mpr ((hn.sublist (List.takeWhile_sublist _)).filter _)
      rw [hrefs] at hmem hnd
      obtain ⟨m1, k1⟩ := hmem d1 (by simp)
      obtain ⟨m2, k2⟩ := hmem d2 (by simp)
      have hne : d1 ≠ d2 := by
        rintro rfl
        simp at hnd
      refine ⟨at' a d, ?_, .inl rfl⟩
      exact extrapolate_real S hfl _ a d d1 d2 (o d) (n d) (p a) (v a) (l a d1) (l a d2) (l a d) (ho d) (hnrm d)
        (hits d1 m1 a ha (hsome a d1 k1)) (hits d2 m2 a ha (hsome a d2 k2)) (hl a ha d1 m1 d2 m2 hne) (hcross d hd a ha) (hplane d hd a ha)
    · exact hfirst
  choose! Q hQ hQ' using hexp
  have hQnear : ∀ d ∈ ds, ∀ a < m, planeDist (at' a d) (Q d a) < R := by
    intro d hd a ha
    rcases hQ' d hd a ha with h | h
    · rw [h]
      have : planeDist (at' a d) (at' a d) = 0 := by unfold planeDist; simp
      rw [this]
      exact hR
    · rw [h, planeDist_comm]
      exact hmove d hd a ha
  refine separated_of_distance S hfl m x y z own f ds hzs range inj first hitFirst R at' (fun a d => Q d a) ?_ (fun d hd a ha => hQ d hd a ha)
    (fun d hd a ha _ => hQnear d hd a ha) ?_
  · intro d hd a ha h
    have := hits d (by rw [hzs]; exact List.mem_cons_of_mem _ hd) a ha h
    simp only [Prod.mk.injEq] at this
    exact ⟨this.1, this.2.1⟩
  · intro d hd a ha b hb hab
    have h1 := hQnear d hd a ha
    have h2 := hQnear d hd b hb
    have h3 := hfar d hd a ha b hb hab
    change 4 * R ≤ planeDist (at' a d) (at' b d) at h3
    have h4 := planeDist_triangle (at' a d) (Q d a) (at' b d)
    have h5 := planeDist_triangle (Q d a) (Q d b) (at' b d)
    rw [planeDist_comm (Q d b) (at' b d)] at h5
    linarith

/-- C178, straight tracks: track `a` is the line `p a + l * v a` and crosses DUT `d` at `l = l a d`; its hits (which may be missing except in the first DUT) are at these points. If
no track moves sideways by `R` or more from the first DUT to another, and different tracks are at least `4 R` apart in all DUTs, then every row has exactly the hits of its track. -/
theorem C178_straight (S : Setup (Option ℝ)) (hfl : S.fl = realFloats) (hn : S.zs.Nodup) (m : Nat) (x y z : Nat → Nat → Option ℝ) (own : Nat → Nat → Nat) (f : Nat)
    (ds : List Nat) (hzs : S.zs = f :: ds) (hm : S.ev.length = m) (e : Int) (hev : ∀ e' ∈ S.ev, e' = e)
    (range : ∀ d ∈ ds, ∀ a < m, own d a < m) (inj : ∀ d ∈ ds, ∀ a < m, ∀ b < m, own d a = own d b → a = b)
    (first : ∀ a < m, own f a = a) (hitFirst : ∀ a < m, (x a f).isSome = true)
    (o n : Nat → ℝ × ℝ × ℝ) (ho : ∀ d, S.tr d = (some (o d).1, some (o d).2.1, some (o d).2.2)) (hnrm : ∀ d, S.nrm d = (some (n d).1, some (n d).2.1, some (n d).2.2))
    (p v : Nat → ℝ × ℝ × ℝ) (l : Nat → Nat → ℝ)
    (hits : ∀ d ∈ S.zs, ∀ a < m, (x (own d a) d).isSome = true → (x (own d a) d, y (own d a) d, z (own d a) d) =
      (some ((p a).1 + l a d * (v a).1), some ((p a).2.1 + l a d * (v a).2.1), some ((p a).2.2 + l a d * (v a).2.2)))
    (hcross : ∀ d ∈ ds, ∀ a < m, dot (n d) (v a) ≠ 0)
    (hplane : ∀ d ∈ ds, ∀ a < m, dot (n d) ((p a).1 + l a d * (v a).1 - (o d).1, (p a).2.1 + l a d * (v a).2.1 - (o d).2.1, (p a).2.2 + l a d * (v a).2.2 - (o d).2.2) = 0)
    (hl : ∀ a < m, ∀ d ∈ S.zs, ∀ d' ∈ S.zs, d ≠ d' → l a d ≠ l a d') (R : ℝ) (hR : 0 < R)
    (hmove : ∀ d ∈ ds, ∀ a < m, planeDist ((p a).1 + l a f * (v a).1, (p a).2.1 + l a f * (v a).2.1) ((p a).1 + l a d * (v a).1, (p a).2.1 + l a d * (v a).2.1) < R)
    (hfar : ∀ d ∈ ds, ∀ a < m, ∀ b < m, a ≠ b → 4 * R ≤ planeDist ((p a).1 + l a d * (v a).1, (p a).2.1 + l a d * (v a).2.1) ((p b).1 + l b d * (v b).1, (p b).2.1 + l b d * (v b).2.1)) :
    ∃ t, runFindTracks S x y z = some t ∧ ∀ r < m, ∀ d ∈ S.zs,
      (trackHit S x own r d = true → t.idx r d = own d r ∧ t.x r d = x (own d r) d ∧ t.y r d = y (own d r) d ∧ t.z r d = z (own d r) d) ∧
      (trackHit S x own r d = false → S.fl.isnan (t.x r d) = true) := by
  exact C178_separated S (by rw [hfl]; exact realFloats_ordered) hn m x y z own f ds
    (separated_of_straight S hfl hn m x y z own f ds hzs range inj first hitFirst o n ho hnrm p v l hits hcross hplane hl R hR hmove hfar) hm e hev

/-- Two tracks parallel to the z axis, three DUTs. The second track has no hit in DUT 1, the hits in DUT 2 are in the wrong order. -/
noncomputable def exReal : Setup (Option ℝ) where
  fl := realFloats
  ev := [7, 7]
  zs := [0, 1, 2]
  extrap := [0, 1, 2]
  tr := fun d => (some 0, some 0, some (d : ℝ))
  nrm := fun _ => (some 0, some 0, some 1)

/-- Positions of the hits. -/
noncomputable def exX (r d : Nat) : Option ℝ := if d = 2 then some (if r = 0 then 10 else 0) else if d = 1 ∧ r = 1 then none else some (if r = 0 then 0 else 10)

/-- Row of the hit of a track. -/
def exOwn (d a : Nat) : Nat := if d = 2 then (if a = 0 then 1 else if a = 1 then 0 else a) else a

example : ∃ t, runFindTracks exReal exX (fun _ _ => some 0) (fun _ d => some d) = some t ∧ t.idx 0 2 = 1 ∧ t.idx 1 2 = 0 ∧ t.x 1 1 = none := by
  obtain ⟨t, h1, h2⟩ := C178_straight exReal rfl (by decide) 2 exX (fun _ _ => some 0) (fun _ d => some (d : ℝ)) exOwn 0 [1, 2] rfl rfl 7 (by decide)
    (by decide) (by decide) (by decide) (by intro a ha; simp [exX])
    (fun d => (0, 0, (d : ℝ))) (fun _ => (0, 0, 1)) (fun _ => rfl) (fun _ => rfl) (fun a => (if a = 0 then 0 else 10, 0, 0)) (fun _ => (0, 0, 1)) (fun _ d => (d : ℝ))
    (by
      intro d hd a ha h
      have hd : d = 0 ∨ d = 1 ∨ d = 2 := by simpa [exReal] using hd
      have ha : a = 0 ∨ a = 1 := by omega
      rcases hd with rfl | rfl | rfl <;> rcases ha with rfl | rfl <;> simp [exX, exOwn] at h ⊢)
    (by intro d _ a _; simp [dot]) (by intro d _ a _; simp [dot])
    (by intro a _ d _ d' _ h h'; exact h (by exact_mod_cast h')) 1 (by norm_num)
    (by intro d _ a _; simp [planeDist])
    (by
      intro d _ a ha b hb hab
      have ha : a = 0 ∨ a = 1 := by omega
      have hb : b = 0 ∨ b = 1 := by omega
      have e : (10 : ℝ) ^ 2 = 100 := by norm_num
      have e4 : (4 : ℝ) ≤ Real.sqrt ((10 : ℝ) ^ 2) := by rw [Real.sqrt_sq (by norm_num)]; norm_num
      rcases ha with rfl | rfl <;> rcases hb with rfl | rfl
      · exact absurd rfl hab
      · simpa [planeDist] using e4
      · simpa [planeDist] using e4
      · exact absurd rfl hab)
  have hnan : ∀ v : Option ℝ, exReal.fl.isnan v = true → v = none := by
    intro v hv
    cases v with
    | none => rfl
    | some v => simp [exReal, realFloats] at hv
  refine ⟨t, h1, ?_, ?_, ?_⟩
  · exact ((h2 0 (by decide) 2 (by decide)).1 (by simp [trackHit, exOwn, exX, exReal, realFloats])).1
  · exact ((h2 1 (by decide) 2 (by decide)).1 (by simp [trackHit, exOwn, exX, exReal, realFloats])).1
  · exact hnan _ ((h2 1 (by decide) 1 (by decide)).2 (by simp [trackHit, exOwn, exX, exReal, realFloats]))

end BTA.Find.Props

namespace BTA.FindFile.Props
open BTA.FindFile BTA.Find BTA.Sel BTA.Spec
open BTA.Find.Props (columnName CleanBase)
open BTA.Fit (Sampling)

/-- C178 for a file: if the hits of event `e` come from separated tracks, the rows of this event in the output are the tracks: all columns of a DUT come from the row with the hit of the
track; a DUT without hit of the track has the columns of a row without hit. The other events of the file have no influence. -/
theorem C178_file {F E : Type} (G : Setting F E) (O : OrderedFloats G.setup.fl) (hn : G.setup.zs.Nodup) (hG : G.n ≤ 10) (S : Sampling) (cs : Nat) (hcs : 0 < cs)
    (T : List (Row E)) (hT : SortedBy Row.ev T) (hm : ∀ e, multiplicity Row.ev T e < cs) (out : List (Row E)) (h : findFile G S 0 cs T = some (out, none)) (e : Int)
    (Te : List (Row E)) (hTe : Te = T.filter fun t => decide (t.ev = e)) (own : Nat → Nat → Nat) (f : Nat) (ds : List Nat)
    (H : Separated G.setup Te.length (fun r d => (posOf G Te r d).1) (fun r d => (posOf G Te r d).2.1) (fun r d => (posOf G Te r d).2.2) own f ds) :
    (out.filter fun t => decide (t.ev = e)).length = Te.length ∧ ∀ (r : Nat) (row : Row E), (out.filter fun t => decide (t.ev = e))[r]? = some row → ∀ d ∈ G.setup.zs, d < G.n →
      ∃ (j : Nat) (i : Row E), Te[j]? = some i ∧ (∀ base, CleanBase base → row.cols (columnName base d) = i.cols (columnName base d)) ∧
        (if G.setup.fl.isnan (posOf G Te (own d r) d).1 then G.setup.fl.isnan (G.pos d i.cols).1 = true else j = own d r) := by
  obtain ⟨o, h1, h2⟩ := C176_one_chunk G hn S cs hcs T hT hm
  rw [h2] at h
  have heq : o = out := (Prod.mk.inj (Option.some.inj h)).1
  subst heq
  have hf := findChunk_filter G hn (fun k => decide (k = e)) _ T (Nat.le_refl _) hT o h1
  rw [← hTe] at hf
  generalize (o.filter fun t => decide (t.ev = e)) = oe at hf
  rw [findChunk_eq] at hf
  obtain ⟨t, ht, hd⟩ := BTA.Find.Props.C178_separated (setupOf G Te) O hn Te.length (fun r d => (posOf G Te r d).1) (fun r d => (posOf G Te r d).2.1)
    (fun r d => (posOf G Te r d).2.2) own f ds
    ⟨H.zs, H.range, H.inj, H.first, H.hitFirst, H.nonneg, H.ownTrack, H.ownHit⟩ (List.length_map _) e (by
    intro k hk
    obtain ⟨i, hi, rfl⟩ := List.mem_map.mp hk
    rw [hTe] at hi
    exact of_decide_eq_true (List.mem_filter.mp hi).2)
  rw [show findLoop (setupOf G Te) (-1) 0 (startOf G Te) = some t from ht, Option.map_some] at hf
  have hlt := idx_lt G hn Te t ht
  have hoe := Option.some.inj hf
  subst hoe
  refine ⟨by simp, ?_⟩
  intro r row hrow d hdz hdn
  rw [List.getElem?_map, Option.map_eq_some_iff] at hrow
  obtain ⟨⟨i, r'⟩, hi, rfl⟩ := hrow
  rw [List.getElem?_zipIdx, Option.map_eq_some_iff] at hi
  obtain ⟨i', hi, heq⟩ := hi
  obtain ⟨rfl, rfl⟩ := Prod.mk.inj heq
  rw [Nat.zero_add]
  have hr : r < Te.length := (List.getElem?_eq_some_iff.mp hi).1
  have hl := hlt r hr d
  obtain ⟨g1, g2⟩ := hd r hr d hdz
  refine ⟨t.idx r d, Te[t.idx r d], List.getElem?_eq_getElem hl, ?_, ?_⟩
  · intro base hb
    unfold outRow
    dsimp only
    rw [BTA.Find.Props.C22_assigned_row_partial G.n hG t.idx d hdn base hb]
    congr 1
    rw [List.getD_eq_getElem?_getD, List.getElem?_eq_getElem hl]
    rfl
  · have hx : t.x r d = (posOf G Te (t.idx r d) d).1 := by
      obtain ⟨σ, hp, -⟩ := BTA.Find.Props.run_permuted (setupOf G Te) _ _ _ hn t ht
      rw [hp.x, hp.idx]
    unfold trackHit at g1 g2
    cases hnan : G.setup.fl.isnan (posOf G Te (own d r) d).1 with
    | false =>
      simp only [Bool.false_eq_true, if_false]
      exact (g1 (by rw [hnan]; rfl)).1
    | true =>
      simp only [if_true]
      have := g2 (by rw [hnan]; rfl)
      rw [hx] at this
      unfold posOf at this
      rw [List.getElem?_eq_getElem hl] at this
      exact this

end BTA.FindFile.Props
