import Verif.Spec.ChainBlurred
import Verif.Props.Chain
/-
C190: straight tracks measured with limited resolution become track candidates with exactly their hits.
-/
namespace BTA.Find.Props
open BTA.Find

theorem separated_of_bounds (S : Setup (Option ℝ)) (hfl : S.fl = realFloats) (m : Nat) (x y z : Nat → Nat → Option ℝ) (own : Nat → Nat → Nat) (f : Nat)
    (ds : List Nat) (hzs : S.zs = f :: ds)
    (range : ∀ d ∈ ds, ∀ a < m, own d a < m) (inj : ∀ d ∈ ds, ∀ a < m, ∀ b < m, own d a = own d b → a = b)
    (first : ∀ a < m, own f a = a) (hitFirst : ∀ a < m, (x a f).isSome = true)
    (D : ℝ) (P Q : Nat → Nat → ℝ × ℝ)
    (hP : ∀ d ∈ ds, ∀ a < m, (x (own d a) d).isSome = true → x (own d a) d = some (P a d).1 ∧ y (own d a) d = some (P a d).2)
    (hQ : ∀ d ∈ ds, ∀ a < m, expectedAt S x y z own f a d = (some (Q a d).1, some (Q a d).2))
    (hnear : ∀ d ∈ ds, ∀ a < m, (x (own d a) d).isSome = true → planeDist (P a d) (Q a d) ≤ D)
    (hfar : ∀ d ∈ ds, ∀ a < m, ∀ b < m, a ≠ b → (x (own d a) d).isSome = true → D < planeDist (P a d) (Q b d)) :
    Separated S m x y z own f ds := by
  have hsome : ∀ a d, trackHit S x own a d = true → (x (own d a) d).isSome = true := by
    intro a d h
    unfold trackHit at h
    rw [hfl] at h
    simp only [realFloats] at h
    cases hx : x (own d a) d with
    | none => rw [hx] at h; simp at h
    | some v => rfl
  have hd : ∀ d ∈ ds, ∀ a < m, trackHit S x own a d = true → ∀ b < m, hitDist S x y z own f a b d = some (planeDist (P a d) (Q b d)) := by
    intro d hd a ha hh b hb
    unfold hitDist
    rw [(hP d hd a ha (hsome a d hh)).1, (hP d hd a ha (hsome a d hh)).2, hQ d hd b hb, distance_real S hfl]
  refine ⟨hzs, range, inj, first, ?_, ?_, ?_, ?_⟩
  · intro a ha
    rw [hfl]
    have := hitFirst a ha
    simp only [realFloats]
    cases hx : x a f with
    | none => rw [hx] at this; cases this
    | some v => rfl
  · intro d hdd a ha hh
    rw [hd d hdd a ha hh a ha, hfl]
    simp only [realFloats, decide_eq_true_eq]
    exact planeDist_nonneg _ _
  · intro d hdd a ha hh b hb hba
    rw [hd d hdd a ha hh a ha, hd d hdd a ha hh b hb, hfl]
    simp only [realFloats, decide_eq_true_eq]
    exact lt_of_le_of_lt (hnear d hdd a ha (hsome a d hh)) (hfar d hdd a ha b hb (fun h => hba h.symm) (hsome a d hh))
  · intro d hdd a ha hh b hb hba hhb
    rw [hd d hdd a ha hh a ha, hd d hdd b hb hhb a ha, hfl]
    simp only [realFloats, decide_eq_true_eq]
    exact lt_of_le_of_lt (hnear d hdd a ha (hsome a d hh)) (hfar d hdd b hb a ha hba (hsome b d hhb))

theorem planeDist_add (p q e e' : ℝ × ℝ) (k k' : ℝ) (h : p.1 - q.1 = k * e.1 + k' * e'.1) (h' : p.2 - q.2 = k * e.2 + k' * e'.2) :
    planeDist p q ≤ |k| * planeDist e (0, 0) + |k'| * planeDist e' (0, 0) := by
  have hs : ∀ (c : ℝ) (v : ℝ × ℝ), planeDist (c * v.1, c * v.2) (0, 0) = |c| * planeDist v (0, 0) := by
    intro c v
    unfold planeDist
    dsimp only
    rw [← Real.sqrt_sq_eq_abs, ← Real.sqrt_mul (sq_nonneg c)]
    congr 1
    ring
  have ht := planeDist_triangle (k * e.1 + k' * e'.1, k * e.2 + k' * e'.2) (k' * e'.1, k' * e'.2) (0, 0)
  have e1 : planeDist (k * e.1 + k' * e'.1, k * e.2 + k' * e'.2) (k' * e'.1, k' * e'.2) = planeDist (k * e.1, k * e.2) (0, 0) := by
    unfold planeDist
    dsimp only
    congr 1
    ring
  have e2 : planeDist p q = planeDist (k * e.1 + k' * e'.1, k * e.2 + k' * e'.2) (0, 0) := by
    unfold planeDist
    dsimp only
    rw [h, h', sub_zero, sub_zero]
  rw [e2]
  rw [e1, hs, hs] at ht
  exact ht

end BTA.Find.Props

namespace BTA.Chain.Props
open BTA.Chain BTA.MergedColumns BTA.Line BTA.Dut BTA.Geo BTA.Spec BTA.Merge BTA.FindFile BTA.Find.Props
open BTA.Fit (Sampling)

theorem flat_normal (a : Alignment) (h : ∀ q, InPlane a q ↔ q 2 = a.z) :
    dutNormal a.alpha a.beta a.gamma 0 = 0 ∧ dutNormal a.alpha a.beta a.gamma 1 = 0 ∧ dutNormal a.alpha a.beta a.gamma 2 ≠ 0 := by
  have h0 : InPlane a ![a.x, a.y, a.z] := (h _).mpr rfl
  have key : ∀ v : Vec3, Geo.dot (dutNormal a.alpha a.beta a.gamma) v = 0 ↔ v 2 = 0 := by
    intro v
    rw [BTA.AlignTel.Props.contains_iff, ← inPlane_add a _ v h0, h]
    simp
  have hd : ∀ v : Vec3, Geo.dot (dutNormal a.alpha a.beta a.gamma) v =
      dutNormal a.alpha a.beta a.gamma 0 * v 0 + dutNormal a.alpha a.beta a.gamma 1 * v 1 + dutNormal a.alpha a.beta a.gamma 2 * v 2 := by
    intro v
    simp [Geo.dot, dotProduct, Fin.sum_univ_succ]
    try ring
  have a1 := (key ![1, 0, 0]).mpr rfl
  have a2 := (key ![0, 1, 0]).mpr rfl
  have a3 : ¬ Geo.dot (dutNormal a.alpha a.beta a.gamma) ![0, 0, 1] = 0 := fun h => absurd ((key ![0, 0, 1]).mp h) (by simp)
  rw [hd] at a1 a2 a3
  simp at a1 a2 a3
  exact ⟨a1, a2, a3⟩

theorem sideways_eq (p q : Vec3) : sideways p q = planeDist (p 0, p 1) (q 0, q 1) := rfl

theorem sublist_refs (S : BTA.Find.Setup (Option ℝ)) (x : Nat → Nat → Option ℝ) (own : Nat → Nat → Nat) (a d d1 d2 : Nat) (rest : List Nat) (hd : d ∈ S.zs)
    (h : BTA.Find.trackRefs S x own a d = d2 :: d1 :: rest) :
    [d1, d2, d].Sublist S.zs ∧ BTA.Find.trackHit S x own a d1 = true ∧ BTA.Find.trackHit S x own a d2 = true := by
  have hmem : ∀ e ∈ BTA.Find.trackRefs S x own a d, BTA.Find.trackHit S x own a e = true := by
    intro e he
    unfold BTA.Find.trackRefs at he
    rw [List.mem_reverse, List.mem_filter, Bool.and_eq_true] at he
    exact he.2.1
  refine ⟨?_, hmem d1 (by rw [h]; simp), hmem d2 (by rw [h]; simp)⟩
  unfold BTA.Find.trackRefs at h
  rw [List.reverse_eq_iff, List.reverse_cons, List.reverse_cons, List.append_assoc] at h
  have h1 : [d1, d2].Sublist (S.zs.takeWhile fun e => decide (e ≠ d)) := by
    have h0 := List.filter_sublist (p := fun e => BTA.Find.trackHit S x own a e && S.extrap.contains e) (l := S.zs.takeWhile fun e => decide (e ≠ d))
    rw [h] at h0
    exact (List.sublist_append_right _ _).trans h0
  have h2 : [d].Sublist (S.zs.dropWhile fun e => decide (e ≠ d)) := by
    rw [List.singleton_sublist]
    have h3 : d ∈ (S.zs.takeWhile fun e => decide (e ≠ d)) ++ (S.zs.dropWhile fun e => decide (e ≠ d)) := by rw [List.takeWhile_append_dropWhile]; exact hd
    rcases List.mem_append.mp h3 with h4 | h4
    · have := List.mem_takeWhile_imp h4
      simp at this
    · exact h4
  have := h1.append h2
  rw [List.takeWhile_append_dropWhile] at this
  exact this

/-- Extrapolation of two measured points to a third sensor: the error is amplified by at most `1 + 2 * lev`. -/
theorem extrapolate_blurred (S : BTA.Find.Setup (Option ℝ)) (hfl : S.fl = BTA.Find.realFloats) (t : BTA.Find.Tracks (Option ℝ)) (r d d1 d2 : Nat) (o n h1 h2 p v : Vec3) (l1 l2 l err lev : ℝ)
    (ho : S.tr d = (some (o 0), some (o 1), some (o 2))) (hn : S.nrm d = (some (n 0), some (n 1), some (n 2))) (hn0 : n 0 = 0) (hn1 : n 1 = 0) (hn2 : n 2 ≠ 0)
    (e1 : (t.x r d1, t.y r d1, t.z r d1) = (some (h1 0), some (h1 1), some (h1 2))) (e2 : (t.x r d2, t.y r d2, t.z r d2) = (some (h2 0), some (h2 1), some (h2 2)))
    (z1 : h1 2 = (p + l1 • v) 2) (z2 : h2 2 = (p + l2 • v) 2) (z : o 2 = (p + l • v) 2) (hz : h1 2 ≠ h2 2) (hlev : |o 2 - h2 2| ≤ lev * |h2 2 - h1 2|)
    (m1 : sideways h1 (p + l1 • v) ≤ err) (m2 : sideways h2 (p + l2 • v) ≤ err) :
    ∃ Q : ℝ × ℝ, BTA.Find.extrapolate S t r d d1 d2 = (some Q.1, some Q.2) ∧ planeDist Q ((p + l • v) 0, (p + l • v) 1) ≤ (1 + 2 * lev) * err := by
  have hz' : h2 2 - h1 2 ≠ 0 := sub_ne_zero.mpr (Ne.symm hz)
  set k := (o 2 - h1 2) / (h2 2 - h1 2) with hk
  have hex := extrapolate_real S hfl t r d d1 d2 (o 0, o 1, o 2) (n 0, n 1, n 2) (h1 0, h1 1, h1 2) (h2 0 - h1 0, h2 1 - h1 1, h2 2 - h1 2) 0 1 k ho hn
    (by rw [e1]; simp) (by rw [e2]; simp) (by norm_num) (by unfold BTA.Find.Props.dot; dsimp only; rw [hn0, hn1, zero_mul, zero_mul, zero_add, zero_add]; exact mul_ne_zero hn2 hz')
    (by
      unfold BTA.Find.Props.dot
      dsimp only
      rw [hn0, hn1, hk, div_mul_cancel₀ _ hz']
      ring)
  refine ⟨(h1 0 + k * (h2 0 - h1 0), h1 1 + k * (h2 1 - h1 1)), hex, ?_⟩
  simp only [Pi.add_apply, Pi.smul_apply, smul_eq_mul] at z1 z2 z ⊢
  have hkz : k * (h2 2 - h1 2) = o 2 - h1 2 := div_mul_cancel₀ _ hz'
  have hv : v 2 ≠ 0 := by
    intro h0
    rw [h0] at z1 z2
    apply hz
    rw [z1, z2]
    ring
  have hll : l = l1 + k * (l2 - l1) := by
    have : (l - l1 - k * (l2 - l1)) * v 2 = 0 := by
      rw [z1, z2, z] at hkz
      linear_combination -hkz
    have := (mul_eq_zero.mp this).resolve_right hv
    linarith
  have hd := planeDist_add (h1 0 + k * (h2 0 - h1 0), h1 1 + k * (h2 1 - h1 1)) (p 0 + l * v 0, p 1 + l * v 1)
    (h1 0 - (p 0 + l1 * v 0), h1 1 - (p 1 + l1 * v 1)) (h2 0 - (p 0 + l2 * v 0), h2 1 - (p 1 + l2 * v 1)) (1 - k) k
    (by dsimp only; rw [hll]; ring) (by dsimp only; rw [hll]; ring)
  have hside : ∀ (h q : Vec3), planeDist (h 0 - q 0, h 1 - q 1) (0, 0) = sideways h q := by
    intro h q
    unfold planeDist sideways
    dsimp only
    rw [sub_zero, sub_zero]
  have hs1 := hside h1 (p + l1 • v)
  have hs2 := hside h2 (p + l2 • v)
  simp only [Pi.add_apply, Pi.smul_apply, smul_eq_mul] at hs1 hs2
  rw [hs1, hs2] at hd
  have herr : 0 ≤ err := le_trans (Real.sqrt_nonneg _) m1
  have hk1 : k - 1 = (o 2 - h2 2) / (h2 2 - h1 2) := by
    rw [hk]
    field_simp
    ring
  have hkl : |k - 1| ≤ lev := by
    rw [hk1, abs_div, div_le_iff₀ (abs_pos.mpr hz')]
    exact hlev
  have hk2 : |k| ≤ 1 + lev := by
    have := abs_add_le (k - 1) 1
    rw [sub_add_cancel, abs_one] at this
    linarith
  have hk3 : |1 - k| ≤ lev := by rw [abs_sub_comm]; exact hkl
  calc _ ≤ _ := hd
    _ ≤ |1 - k| * err + |k| * err := add_le_add (mul_le_mul_of_nonneg_left m1 (abs_nonneg _)) (mul_le_mul_of_nonneg_left m2 (abs_nonneg _))
    _ ≤ lev * err + (1 + lev) * err := add_le_add (mul_le_mul_of_nonneg_right hk3 herr) (mul_le_mul_of_nonneg_right hk2 herr)
    _ = _ := by ring

/-- The tracks of an event are separated in the sense of the track finding. -/
theorem blurred_event (beam : Option Alignment) (duts : List (Bool × Pixels ℝ)) (als : List Alignment) (hb : SamePlanes beam als) (hflat : Flat als) (hn : als.length = duts.length)
    (zs extrap : List Nat) (hz : zs.Perm (List.range als.length)) (f : Nat) (ds : List Nat) (hf : zs = f :: ds) (err lev move : ℝ) (hlever : Lever als zs lev)
    (clusters : Nat → List (Clust ℝ)) (t : Truth) (hI : Blurred beam duts als clusters f err lev move t) (x : Nat → Nat → Option ℝ × Option ℝ × Option ℝ)
    (hx : ∀ r < t.m, ∀ d a dut, als[d]? = some a → duts[d]? = some dut → x r d = globalPos beam a (((clusters d)[r]?).map (clusterHit dut))) :
    BTA.Find.Separated (telescopeSetting beam als zs extrap).setup t.m (fun r d => (x r d).1) (fun r d => (x r d).2.1) (fun r d => (x r d).2.2) (fun d r => t.own r d) f ds := by
  have hmem : ∀ d, d ∈ zs ↔ d < als.length := fun d => by rw [hz.mem_iff, List.mem_range]
  have hds : ∀ d ∈ ds, d < als.length ∧ d ≠ f := by
    intro d hd
    refine ⟨(hmem d).mp (by rw [hf]; exact List.mem_cons_of_mem _ hd), ?_⟩
    rintro rfl
    have := hz.nodup_iff.mpr List.nodup_range
    rw [hf] at this
    exact (List.nodup_cons.mp this).1 hd
  have hfn : f < als.length := (hmem f).mp (by rw [hf]; simp)
  have hget : ∀ d, d < als.length → ∃ a dut, als[d]? = some a ∧ duts[d]? = some dut := by
    intro d hd
    exact ⟨als[d], duts[d], List.getElem?_eq_getElem hd, List.getElem?_eq_getElem (by omega)⟩
  let C : Nat → Nat → Vec3 := fun r d => beamPos beam (t.at' r d)
  have hC : ∀ r d, C r d = beamPos beam (t.p r) + t.l r d • beamDir beam (t.v r) := by
    intro r d
    show beamPos beam (t.p r + t.l r d • t.v r) = _
    rw [beamPos_add]
  have hCz : ∀ r < t.m, ∀ d a, als[d]? = some a → C r d 2 = a.z := by
    intro r hr d a ha
    exact (hflat a (List.mem_of_getElem? ha) _).mp ((hb a (List.mem_of_getElem? ha) _).mpr (hI.crosses d a ha r hr))
  have hH : ∀ d a, als[d]? = some a → ∀ r < t.m, (x (t.own r d) d).1.isSome = true → ∃ h : Vec3, x (t.own r d) d = (some (h 0), some (h 1), some (h 2)) ∧ h 2 = a.z ∧
      sideways h (C r d) ≤ err := by
    intro d a ha r hr hs
    have hdn := (List.getElem?_eq_some_iff.mp ha).1
    obtain ⟨a', dut, ha', hdu⟩ := hget d hdn
    rw [ha] at ha'
    cases ha'
    have e := hx (t.own r d) (hI.range d hdn r hr) d a dut ha hdu
    rw [e] at hs ⊢
    cases hc : (clusters d)[t.own r d]? with
    | none => rw [hc] at hs; cases hs
    | some c =>
      obtain ⟨q, hq, hm⟩ := hI.measured d a dut ha hdu r hr c hc
      have hp := placed_clusterHit a dut c q hq
      rw [← globalHit_eq] at hp
      refine ⟨beamPos beam q, ?_, ?_, hm⟩
      · show (some (toBeam beam (globalHit a (clusterHit dut c)) 0), _, _) = _
        rw [hp, toBeam_eq]
      · exact (hflat a (List.mem_of_getElem? ha) _).mp ((hb a (List.mem_of_getElem? ha) _).mpr ⟨_, _, hq⟩)
  have hfirst : ∀ r < t.m, (x r f).1.isSome = true := by
    intro r hr
    obtain ⟨a, dut, ha, hd⟩ := hget f hfn
    rw [hx r hr f a dut ha hd, List.getElem?_eq_getElem (by rw [hI.first.1]; exact hr)]
    rfl
  set D := max (move + 2 * err) (2 * (1 + lev) * err) with hD
  have hexp : ∀ d ∈ ds, ∀ r < t.m, ∃ Q : ℝ × ℝ, BTA.Find.expectedAt (telescopeSetting beam als zs extrap).setup (fun r d => (x r d).1) (fun r d => (x r d).2.1) (fun r d => (x r d).2.2)
      (fun d r => t.own r d) f r d = (some Q.1, some Q.2) ∧ planeDist Q (C r d 0, C r d 1) ≤ D - err := by
    intro d hd r hr
    obtain ⟨a, dut, ha, hdu⟩ := hget d (hds d hd).1
    unfold BTA.Find.expectedAt
    split
    next d2 d1 rest hrefs =>
      have hdz : d ∈ zs := by rw [hf]; exact List.mem_cons_of_mem _ hd
      obtain ⟨hsub, k1, k2⟩ := sublist_refs _ _ _ _ _ _ _ _ (show d ∈ (telescopeSetting beam als zs extrap).setup.zs from hdz) hrefs
      have hsub : [d1, d2, d].Sublist zs := hsub
      obtain ⟨a1, dut1, ha1, -⟩ := hget d1 ((hmem d1).mp (hsub.subset (by simp)))
      obtain ⟨a2, dut2, ha2, -⟩ := hget d2 ((hmem d2).mp (hsub.subset (by simp)))
      have hs : ∀ e, BTA.Find.trackHit (telescopeSetting beam als zs extrap).setup (fun r d => (x r d).1) (fun d r => t.own r d) r e = true → (x (t.own r e) e).1.isSome = true := by
        intro e he
        unfold BTA.Find.trackHit at he
        change (!(x (t.own r e) e).1.isNone) = true at he
        rw [Option.not_isNone] at he
        exact he
      obtain ⟨h1, x1, zz1, m1⟩ := hH d1 a1 ha1 r hr (hs d1 k1)
      obtain ⟨h2, x2, zz2, m2⟩ := hH d2 a2 ha2 r hr (hs d2 k2)
      obtain ⟨hne, hl⟩ := hlever d1 d2 d a1 a2 a hsub ha1 ha2 ha
      obtain ⟨n0, n1, n2⟩ := flat_normal a (hflat a (List.mem_of_getElem? ha))
      have hC1 := hCz r hr d1 a1 ha1
      have hC2 := hCz r hr d2 a2 ha2
      have hC3 := hCz r hr d a ha
      rw [hC] at m1 m2 hC1 hC2 hC3
      obtain ⟨Q, hQ, hQd⟩ := extrapolate_blurred (telescopeSetting beam als zs extrap).setup rfl
        (BTA.Find.trackHits (fun r d => (x r d).1) (fun r d => (x r d).2.1) (fun r d => (x r d).2.2) (fun d r => t.own r d)) r d d1 d2
        ![a.x, a.y, a.z] (dutNormal a.alpha a.beta a.gamma) h1 h2 (beamPos beam (t.p r)) (beamDir beam (t.v r)) (t.l r d1) (t.l r d2) (t.l r d) err lev
        (by show (some (alignmentOf als d).x, _, _) = _; rw [alignmentOf_eq als d a ha]; rfl)
        (by show (some (dutNormal (alignmentOf als d).alpha _ _ 0), _, _) = _; rw [alignmentOf_eq als d a ha]) n0 n1 n2 x1 x2
        (by rw [zz1, hC1]) (by rw [zz2, hC2]) (by rw [hC3]; rfl) (by rw [zz1, zz2]; exact hne) (by rw [zz1, zz2]; exact hl) m1 m2
      refine ⟨Q, hQ, ?_⟩
      rw [hC]
      have := le_max_right (move + 2 * err) (2 * (1 + lev) * err)
      calc _ ≤ _ := hQd
        _ = 2 * (1 + lev) * err - err := by ring
        _ ≤ _ := by rw [hD]; linarith
    · obtain ⟨af, dutf, haf, -⟩ := hget f hfn
      have hof := hI.first.2 r hr
      obtain ⟨h, xh, -, mh⟩ := hH f af haf r hr (by rw [hof]; exact hfirst r hr)
      rw [hof] at xh
      refine ⟨(h 0, h 1), by dsimp only; rw [xh], ?_⟩
      have h1 := planeDist_triangle (h 0, h 1) (C r f 0, C r f 1) (C r d 0, C r d 1)
      have h2 := hI.moves d (hds d hd).1 r hr
      change planeDist (C r f 0, C r f 1) (C r d 0, C r d 1) ≤ move at h2
      change planeDist (h 0, h 1) (C r f 0, C r f 1) ≤ err at mh
      have := le_max_left (move + 2 * err) (2 * (1 + lev) * err)
      rw [← hD] at this
      linarith
  choose! Q hQ hQ' using hexp
  have hP : ∀ d ∈ ds, ∀ r < t.m, (x (t.own r d) d).1.isSome = true → ∃ P : ℝ × ℝ, x (t.own r d) d = (some P.1, some P.2, (x (t.own r d) d).2.2) ∧ planeDist P (C r d 0, C r d 1) ≤ err := by
    intro d hd r hr hs
    obtain ⟨a, dut, ha, hdu⟩ := hget d (hds d hd).1
    obtain ⟨h, xh, -, mh⟩ := hH d a ha r hr hs
    exact ⟨(h 0, h 1), by rw [xh], mh⟩
  choose! P hP hP' using hP
  refine separated_of_bounds (telescopeSetting beam als zs extrap).setup rfl t.m _ _ _ _ f ds hf
    (fun d hd r hr => hI.range d (hds d hd).1 r hr) (fun d hd a ha b hb h => hI.inj d (hds d hd).1 a ha b hb h) (fun r hr => hI.first.2 r hr) hfirst
    D (fun r d => P d r) (fun r d => Q d r) ?_ hQ ?_ ?_
  · intro d hd r hr hs
    have := hP d hd r hr hs
    exact ⟨by rw [this], by rw [this]⟩
  · intro d hd r hr hs
    have h1 := hP' d hd r hr hs
    have h2 := hQ' d hd r hr
    have h3 := planeDist_triangle (P d r) (C r d 0, C r d 1) (Q d r)
    rw [planeDist_comm (C r d 0, C r d 1) (Q d r)] at h3
    linarith
  · intro d hd r hr s hs' hrs hs
    have h1 := hP' d hd r hr hs
    have h2 := hQ' d hd s hs'
    have h3 := hI.separated d (hds d hd).1 (hds d hd).2 r hr s hs' hrs
    change 2 * D < planeDist (C r d 0, C r d 1) (C s d 0, C s d 1) at h3
    have h4 := planeDist_triangle (C r d 0, C r d 1) (P d r) (C s d 0, C s d 1)
    have h5 := planeDist_triangle (P d r) (Q d s) (C s d 0, C s d 1)
    rw [planeDist_comm (C r d 0, C r d 1) (P d r)] at h4
    linarith

/-- C190: `merge_cluster_data` followed by `find_tracks`, sensors perpendicular to the z axis, as C185 but with position errors of the clusters: each cluster is measured within `err`
of where the track crosses the sensor. In every event whose tracks are separated by more than `2 * max (move + 2 * err) (2 * (1 + lev) * err)`, there is one track candidate for each
track, and it has exactly the hits of this track. -/
theorem C190_candidates (duts : List (Bool × Pixels ℝ)) (als : List Alignment) (beam : Option Alignment) (hb : SamePlanes beam als) (hflat : Flat als) (hn : als.length = duts.length) (h10 : duts.length ≤ 10)
    (zs extrap : List Nat) (hz : zs.Perm (List.range als.length)) (f : Nat) (ds : List Nat) (hf : zs = f :: ds) (err lev move : ℝ) (hlever : Lever als zs lev)
    (S : Sampling) (cs : Nat) (hcs : 0 < cs) (T0 : List (Clust ℝ)) (others : List (List (Clust ℝ)))
    (hd : duts.length = others.length + 1) (hs0 : SortedBy Clust.ev T0) (hs : ∀ T ∈ others, SortedBy Clust.ev T)
    (hm : ∀ T ∈ T0 :: others, ∀ e, BTA.Spec.multiplicity Clust.ev T e < cs) :
    ∃ merged out, mergeClusterData Clust.ev T0 others cs = .ok merged ∧
      findFile (telescopeSetting beam als zs extrap) S 0 cs (merged.map (mergedRow duts)) = some (out, none) ∧
      (∀ row ∈ out, ∃ x ∈ T0, row.ev ≤ x.ev) ∧
      ∀ (e : Int) (t : Truth), (∃ x ∈ T0, e ≤ x.ev) → Blurred beam duts als (eventOf (T0 :: others) e) f err lev move t →
        (out.filter fun row => decide (row.ev = e)).length = t.m ∧
        ∀ (r : Nat) (row : Row (Value ℝ)), (out.filter fun row => decide (row.ev = e))[r]? = some row → ∀ d dut, duts[d]? = some dut →
          candOf row d = ((eventOf (T0 :: others) e d)[t.own r d]?).map (clusterHit dut) := by
  obtain ⟨merged, out, h1, h2, h3, h4⟩ := candidates_of_separated duts als beam hn h10 zs extrap hz f ds hf S cs hcs T0 others hd hs0 hs hm
  refine ⟨merged, out, h1, h2, h3, ?_⟩
  intro e t he hI
  exact h4 e t.m t.own he hI.first.1 hI.few hI.range fun x hx => blurred_event beam duts als hb hflat hn zs extrap hz f ds hf err lev move hlever (eventOf (T0 :: others) e) t hI x hx

/-! ### Example: as in Verif.Props.Chain, with position errors up to 0.5. -/

noncomputable def blTables : List (List (Clust ℝ)) := [[exClust 0.5, exClust 10], [exClust (-0.25)], [exClust 9.75, exClust 0]]

theorem blFlat : Flat exAls := by
  intro a ha q
  have key : ∀ z : ℝ, InPlane ⟨0, 0, z, 0, 0, 0⟩ q ↔ q 2 = z := by
    intro z
    unfold InPlane AtLocal
    dsimp only
    constructor
    · rintro ⟨u, w, h⟩
      rw [BTA.Line.Props.rotation_none] at h
      rw [h]
      simp
    · intro h
      refine ⟨q 0, q 1, ?_⟩
      rw [BTA.Line.Props.rotation_none]
      ext i
      fin_cases i <;> simp [h]
  simp only [exAls, List.mem_cons, List.not_mem_nil, or_false] at ha
  rcases ha with rfl | rfl | rfl <;> exact key _

theorem blLever : Lever exAls [0, 1, 2] 1 := by
  intro d1 d2 d a1 a2 a hs h1 h2 h
  have : [d1, d2, d] = [0, 1, 2] := hs.eq_of_length rfl
  simp only [List.cons.injEq, and_true] at this
  obtain ⟨rfl, rfl, rfl⟩ := this
  simp [exAls] at h1 h2 h
  subst h1 h2 h
  norm_num

theorem blEvent (e : Int) (d : Nat) : eventOf blTables e d = if e = 0 then blTables.getD d [] else [] := by
  unfold eventOf
  have h0 : ∀ c ∈ blTables.getD d [], c.ev = 0 := by
    intro c hc
    rcases d with _ | _ | _ | d <;> simp [blTables] at hc
    · rcases hc with rfl | rfl <;> rfl
    · subst hc; rfl
    · rcases hc with rfl | rfl <;> rfl
  by_cases he : e = 0
  · rw [if_pos he]
    exact List.filter_eq_self.mpr fun c hc => by simp [h0 c hc, he]
  · rw [if_neg he]
    exact List.filter_eq_nil_iff.mpr fun c hc => by simpa [h0 c hc] using fun h => he h.symm

theorem blBlurred : Blurred exBeam exDuts exAls (eventOf blTables 0) 0 0.5 1 0 (exTruth 0) := by
  have hE : ∀ d, eventOf blTables 0 d = blTables.getD d [] := fun d => by rw [blEvent, if_pos rfl]
  have hrot : ∀ u w : ℝ, (rotationMatrix 0 0 0).mulVec ![u, w, 0] = ![u, w, 0] := fun u w => BTA.Line.Props.rotation_none u w 0
  have hm : (exTruth 0).m = 2 := rfl
  have hd3 : ∀ d, d < exAls.length → d = 0 ∨ d = 1 ∨ d = 2 := by intro d hd; simp [exAls] at hd; omega
  have hals : ∀ d a, exAls[d]? = some a → d < 3 ∧ a = ⟨0, 0, d, 0, 0, 0⟩ := by
    intro d a h
    rcases d with _ | _ | _ | d <;> simp [exAls] at h <;> subst h <;> refine ⟨by omega, ?_⟩ <;> norm_num
  have hat : ∀ r d : Nat, (exTruth 0).at' r d = ![if r = 0 then 0 else 10, 0, (d : ℝ)] := by
    intro r d
    ext i
    fin_cases i <;> simp [Truth.at', exTruth]
  have hloc : ∀ (u w : ℝ) (d : Nat), AtLocal ⟨0, 0, d, 0, 0, 0⟩ ![u, w, (d : ℝ)] u w := by
    intro u w d
    unfold AtLocal
    rw [hrot]
    ext i
    fin_cases i <;> simp
  have hside : ∀ (u : ℝ) (r d : Nat), sideways (beamPos exBeam ![u, 0, (d : ℝ)]) (beamPos exBeam ((exTruth 0).at' r d)) = |u - if r = 0 then 0 else 10| := by
    intro u r d
    rw [exBeam_eq, exBeam_eq, hat]
    unfold sideways
    rw [← Real.sqrt_sq_eq_abs]
    congr 1
    simp
  refine ⟨⟨by rw [hE]; rfl, by intro r hr; rfl⟩, ?_, ?_, ?_, ?_, ?_, ?_, ?_⟩
  · intro d hd
    rw [hE]
    rcases hd3 d hd with rfl | rfl | rfl <;> simp [blTables, hm]
  · intro d hd r hr
    rw [hm] at hr ⊢
    rcases hd3 d hd with rfl | rfl | rfl <;> simp [exTruth] <;> omega
  · intro d hd r hr s hs
    rw [hm] at hr hs
    rcases hd3 d hd with rfl | rfl | rfl <;> simp [exTruth] <;> omega
  · intro d a ha r hr
    obtain ⟨-, rfl⟩ := hals d a ha
    rw [hat]
    exact ⟨_, _, hloc _ _ d⟩
  · intro d a dut ha hdut r hr c hc
    obtain ⟨hd, rfl⟩ := hals d a ha
    have hy : (clusterHit dut c).y = 0 ∧ |(clusterHit dut c).x - if r = 0 then 0 else 10| ≤ 0.5 := by
      rw [hE] at hc
      rw [hm] at hr
      have hr' : r = 0 ∨ r = 1 := by omega
      have hd' : d = 0 ∨ d = 1 ∨ d = 2 := by omega
      rcases hd' with rfl | rfl | rfl <;> rcases hr' with rfl | rfl <;> simp [blTables, exTruth, exDuts] at hc hdut <;> subst hc <;> subst hdut <;> simp [clusterHit, exClust] <;>
        norm_num [abs_le]
    refine ⟨![(clusterHit dut c).x, 0, (d : ℝ)], ?_, ?_⟩
    · rw [hy.1]
      exact hloc _ _ d
    · rw [hside]
      exact hy.2
  · intro d hd r hr
    rw [exBeam_eq, exBeam_eq, hat, hat]
    simp [sideways]
  · intro d hd hne r hr s hs hrs
    rw [hm] at hr hs
    have h1 := hside (if r = 0 then 0 else 10) s d
    rw [← hat] at h1
    rw [h1]
    have hr' : r = 0 ∨ r = 1 := by omega
    have hs' : s = 0 ∨ s = 1 := by omega
    rcases hr' with rfl | rfl <;> rcases hs' with rfl | rfl <;> first | exact absurd rfl hrs | norm_num

/-- C190: both tracks are found, with the hits of the clusters. -/
example (S : Sampling) : ∃ (merged : _) (out : List (Row (Value ℝ))),
    mergeClusterData Clust.ev [exClust 0.5, exClust 10] [[exClust (-0.25)], [exClust 9.75, exClust 0]] 10 = .ok merged ∧
    findFile (telescopeSetting exBeam exAls [0, 1, 2] [0, 1, 2]) S 0 10 (merged.map (mergedRow exDuts)) = some (out, none) ∧
    (out.filter fun row => decide (row.ev = 0)).length = 2 ∧
    ∀ row, (out.filter fun row => decide (row.ev = 0))[1]? = some row → candOf row 1 = none ∧ candOf row 2 = some ⟨9.75, 0, 0, 1, 1⟩ := by
  obtain ⟨merged, out, h1, h2, -, h3⟩ := C190_candidates exDuts exAls exBeam exPlanes blFlat rfl (by decide) [0, 1, 2] [0, 1, 2] (by decide) 0 [1, 2] rfl 0.5 1 0 blLever S 10 (by decide)
    [exClust 0.5, exClust 10] [[exClust (-0.25)], [exClust 9.75, exClust 0]] rfl (by simp [SortedBy, exClust]) (by intro T hT; simp at hT; rcases hT with rfl | rfl <;> simp [SortedBy, exClust])
    (by
      intro T hT e
      have : T.length < 10 := by simp at hT; rcases hT with rfl | rfl | rfl <;> simp
      exact lt_of_le_of_lt (List.length_filter_le _ _) this)
  obtain ⟨g1, g2⟩ := h3 0 (exTruth 0) ⟨_, List.mem_cons_self .., le_refl _⟩ blBlurred
  have hE : ∀ d, eventOf ([exClust 0.5, exClust 10] :: [[exClust (-0.25)], [exClust 9.75, exClust 0]]) 0 d = blTables.getD d [] := fun d => (blEvent 0 d).trans (if_pos rfl)
  refine ⟨merged, out, h1, h2, g1, ?_⟩
  intro row hrow
  refine ⟨?_, ?_⟩
  · rw [g2 1 row hrow 1 _ rfl, hE]
    rfl
  · rw [g2 1 row hrow 2 _ rfl, hE]
    rfl

end BTA.Chain.Props
