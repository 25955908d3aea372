import Verif.Lemmas.LineFit
import Verif.Spec.Chain
/-
Lemmas: how far a straight line fitted to points near a line is from this line.
-/
namespace BTA.Line.Error
open BTA.Geo BTA.Dut BTA.AlignTel BTA.Spec BTA.Line BTA.Chain

/-- Length of a vector. -/
noncomputable def nrm (x : Vec3) : ℝ := Real.sqrt (dot x x)

theorem nrm_nonneg (x : Vec3) : 0 ≤ nrm x := Real.sqrt_nonneg _

theorem nrm_sq (x : Vec3) : nrm x ^ 2 = dot x x := Real.sq_sqrt (Angle.dot_self_nonneg x)

theorem dot_expand (x y : Vec3) : dot x y = x 0 * y 0 + x 1 * y 1 + x 2 * y 2 := rfl

theorem cauchy (x y : Vec3) : |dot x y| ≤ nrm x * nrm y := by
  apply abs_le_of_sq_le_sq _ (mul_nonneg (nrm_nonneg x) (nrm_nonneg y)) |> fun h => h
  rw [mul_pow, nrm_sq, nrm_sq]
  simp only [dot_expand]
  nlinarith [sq_nonneg (x 0 * y 1 - x 1 * y 0), sq_nonneg (x 0 * y 2 - x 2 * y 0), sq_nonneg (x 1 * y 2 - x 2 * y 1)]

theorem nrm_sub_le (x y : Vec3) : nrm (x - y) ≤ nrm x + nrm y := by
  apply abs_le_of_sq_le_sq' _ (add_nonneg (nrm_nonneg x) (nrm_nonneg y)) |>.2
  have h1 := (abs_le.mp (cauchy x y)).1
  have h2 : nrm (x - y) ^ 2 = nrm x ^ 2 - 2 * dot x y + nrm y ^ 2 := by
    rw [nrm_sq, nrm_sq, nrm_sq]
    simp only [dot_expand, Pi.sub_apply]
    ring
  rw [h2]
  nlinarith

theorem nrm_smul (k : ℝ) (x : Vec3) : nrm (k • x) = |k| * nrm x := by
  unfold nrm
  have : dot (k • x) (k • x) = k ^ 2 * dot x x := by
    simp only [dot_expand, Pi.smul_apply, smul_eq_mul]
    ring
  rw [this, Real.sqrt_mul (sq_nonneg k), Real.sqrt_sq_eq_abs]

theorem sum_le {α : Type} (l : List α) (f g : α → ℝ) (h : ∀ a ∈ l, f a ≤ g a) : (l.map f).sum ≤ (l.map g).sum :=
  List.sum_le_sum h

theorem sum_add {α : Type} (l : List α) (f g : α → ℝ) : (l.map fun a => f a + g a).sum = (l.map f).sum + (l.map g).sum := by
  induction l with
  | nil => simp
  | cons a l ih => simp only [List.map_cons, List.sum_cons, ih]; ring

theorem sum_mul {α : Type} (l : List α) (k : ℝ) (f : α → ℝ) : (l.map fun a => k * f a).sum = k * (l.map f).sum := by
  induction l with
  | nil => simp
  | cons a l ih => simp only [List.map_cons, List.sum_cons, ih]; ring

/-- The part of a vector beside the direction `A`, at the same z. -/
noncomputable def beside (A x : Vec3) : Vec3 := x - x 2 • A

/-- The direction of the first singular vector, if the rows are close to the direction `A`. -/
theorem slope_error (rows : List Vec3) (A u : Vec3) (hA : A 2 = 1) (hu : IsFirstSingular rows u) (E : ℝ) (hE : 0 ≤ E)
    (hnear : (rows.map fun r => dot (beside A r) (beside A r)).sum ≤ E ^ 2)
    (hS : E < Real.sqrt (rows.map fun r => r 2 ^ 2).sum) :
    u 2 ≠ 0 ∧ nrm (A - (u 2)⁻¹ • u) ≤ E * (1 + nrm A) / (Real.sqrt (rows.map fun r => r 2 ^ 2).sum - E) := by
  obtain ⟨hu1, hmax⟩ := hu
  have hu1' : u 0 * u 0 + u 1 * u 1 + u 2 * u 2 = 1 := hu1
  have hA0 : A ≠ 0 := by
    rintro rfl
    simp at hA
  have hS0 : 0 ≤ (rows.map fun r => r 2 ^ 2).sum := by
    apply List.sum_nonneg
    intro x hx
    obtain ⟨r, -, rfl⟩ := List.mem_map.mp hx
    exact sq_nonneg _
  set S := (rows.map fun r => r 2 ^ 2).sum with hSdef
  have hSE : E ^ 2 < S := by
    have := Real.sq_sqrt hS0
    nlinarith
  -- the fitted line is at least as close as the direction `A`
  have step1 : (rows.map fun r => dot r r - dot r u ^ 2).sum ≤ E ^ 2 := by
    obtain ⟨k, hk, hk1⟩ := exists_unit A hA0
    refine le_trans ?_ hnear
    have h1 : (rows.map fun r => dot r r - dot r u ^ 2).sum ≤ (rows.map fun r => dot r r - dot r (k • A) ^ 2).sum := by
      have e1 : ∀ w : Vec3, (rows.map fun r => dot r r - dot r w ^ 2).sum = (rows.map fun r => dot r r).sum - (rows.map fun r => dot r w ^ 2).sum := by
        intro w
        have := sum_add rows (fun r => dot r r - dot r w ^ 2) (fun r => dot r w ^ 2)
        simp only [sub_add_cancel] at this
        linarith
      rw [e1, e1]
      have := hmax _ hk1
      linarith
    refine le_trans h1 (sum_le _ _ _ fun r _ => ?_)
    have e2 : dot (beside A r) (beside A r) = dot r r - 2 * (r 2 * k⁻¹) * dot r (k • A) + (r 2 * k⁻¹) ^ 2 * dot (k • A) (k • A) := by
      unfold beside
      simp only [dot_expand, Pi.sub_apply, Pi.smul_apply, smul_eq_mul]
      field_simp
      ring
    rw [e2, hk1]
    nlinarith [sq_nonneg (r 2 * k⁻¹ - dot r (k • A))]
  have hu2 : u 2 ≠ 0 := by
    intro h0
    have : S ≤ (rows.map fun r => dot r r - dot r u ^ 2).sum := by
      refine sum_le _ _ _ fun r _ => ?_
      simp only [dot_expand, h0, mul_zero, add_zero] at hu1' ⊢
      nlinarith [sq_nonneg (r 0 * u 1 - r 1 * u 0)]
    linarith
  refine ⟨hu2, ?_⟩
  set B := (u 2)⁻¹ • u with hB
  set c := |u 2| with hc
  have hcpos : 0 < c := abs_pos.mpr hu2
  have hc2 : c ^ 2 = u 2 ^ 2 := sq_abs _
  have step3 : c ^ 2 * (rows.map fun r => dot (beside B r) (beside B r)).sum ≤ E ^ 2 := by
    rw [← sum_mul]
    refine le_trans (sum_le _ _ _ fun r _ => ?_) step1
    rw [hc2]
    have e0 : beside B r 0 = r 0 - r 2 / u 2 * u 0 := by
      rw [hB]; unfold beside; simp only [Pi.sub_apply, Pi.smul_apply, smul_eq_mul]; ring
    have e1 : beside B r 1 = r 1 - r 2 / u 2 * u 1 := by
      rw [hB]; unfold beside; simp only [Pi.sub_apply, Pi.smul_apply, smul_eq_mul]; ring
    have e2 : beside B r 2 = 0 := by
      rw [hB]; unfold beside; simp only [Pi.sub_apply, Pi.smul_apply, smul_eq_mul]; field_simp; ring
    generalize hk : r 2 / u 2 = k at e0 e1
    have hr2 : r 2 = k * u 2 := by rw [← hk]; field_simp
    generalize hx : beside B r 0 = x at e0
    generalize hy : beside B r 1 = y at e1
    have f0 : r 0 = x + k * u 0 := by linarith
    have f1 : r 1 = y + k * u 1 := by linarith
    simp only [dot_expand, e2, hx, hy, hr2, f0, f1]
    have hid : (x + k * u 0) * (x + k * u 0) + (y + k * u 1) * (y + k * u 1) + k * u 2 * (k * u 2) -
        ((x + k * u 0) * u 0 + (y + k * u 1) * u 1 + k * u 2 * u 2) ^ 2 - u 2 ^ 2 * (x * x + y * y + 0 * 0) = (x * u 1 - y * u 0) ^ 2 := by
      have h2 : u 2 * u 2 = 1 - u 0 * u 0 - u 1 * u 1 := by linarith
      have e : (x + k * u 0) * u 0 + (y + k * u 1) * u 1 + k * u 2 * u 2 = x * u 0 + y * u 1 + k := by
        linear_combination k * hu1'
      rw [e]
      linear_combination (k ^ 2 - x ^ 2 - y ^ 2) * hu1'
    nlinarith [sq_nonneg (x * u 1 - y * u 0)]
  set δ := nrm (A - B) with hδ
  have hδ0 : 0 ≤ δ := nrm_nonneg _
  have step4 : S * δ ^ 2 ≤ (E * (1 + c⁻¹)) ^ 2 := by
    have h1 : S * δ ^ 2 ≤ (rows.map fun r => (1 + c) * dot (beside B r) (beside B r) + (1 + c⁻¹) * dot (beside A r) (beside A r)).sum := by
      rw [mul_comm, hSdef, ← sum_mul]
      refine sum_le _ _ _ fun r _ => ?_
      rw [hδ, nrm_sq]
      have e : dot (A - B) (A - B) * r 2 ^ 2 = dot (beside B r - beside A r) (beside B r - beside A r) := by
        unfold beside
        simp only [dot_expand, Pi.sub_apply, Pi.smul_apply, smul_eq_mul]
        ring
      have h : dot (beside B r - beside A r) (beside B r - beside A r) ≤ (1 + c) * dot (beside B r) (beside B r) + (1 + c⁻¹) * dot (beside A r) (beside A r) := by
        generalize beside B r = x
        generalize beside A r = y
        have hn := Angle.dot_self_nonneg (c • x + y)
        have e : (1 + c) * dot x x + (1 + c⁻¹) * dot y y - dot (x - y) (x - y) = c⁻¹ * dot (c • x + y) (c • x + y) := by
          simp only [dot_expand, Pi.sub_apply, Pi.smul_apply, Pi.add_apply, smul_eq_mul]
          field_simp
          ring
        have := mul_nonneg (inv_nonneg.mpr hcpos.le) hn
        linarith
      linarith
    rw [sum_add, sum_mul, sum_mul] at h1
    have h2 : (rows.map fun r => dot (beside B r) (beside B r)).sum ≤ E ^ 2 * (c⁻¹) ^ 2 := by
      rw [inv_pow, ← div_eq_mul_inv, le_div_iff₀ (by positivity), mul_comm]
      exact step3
    have h3 := mul_le_mul_of_nonneg_left h2 (by positivity : (0 : ℝ) ≤ 1 + c)
    have h4 := mul_le_mul_of_nonneg_left hnear (by positivity : (0 : ℝ) ≤ 1 + c⁻¹)
    have e : (1 + c) * (E ^ 2 * c⁻¹ ^ 2) + (1 + c⁻¹) * E ^ 2 = (E * (1 + c⁻¹)) ^ 2 := by
      field_simp
      ring
    linarith
  have step5 : Real.sqrt S * δ ≤ E * (1 + c⁻¹) := by
    apply abs_le_of_sq_le_sq' _ (by positivity) |>.2
    rw [mul_pow, Real.sq_sqrt hS0]
    exact step4
  have step6 : c⁻¹ ≤ nrm A + δ := by
    have e1 : nrm B = c⁻¹ := by
      rw [hB, nrm_smul]
      unfold nrm
      rw [hu1, Real.sqrt_one, mul_one, abs_inv]
    rw [← e1]
    have := nrm_sub_le A (A - B)
    rwa [sub_sub_cancel] at this
  rw [le_div_iff₀ (by linarith)]
  have := mul_le_mul_of_nonneg_left step6 hE
  nlinarith

/-- The centre of points, relative to a line. -/
theorem centre_error (ps : List Vec3) (hne : ps ≠ []) (q A : Vec3) (e : ℝ) (he : 0 ≤ e)
    (h : ∀ p ∈ ps, dot (beside A (p - q)) (beside A (p - q)) ≤ e ^ 2) :
    nrm (beside A (centre ps - q)) ≤ e ∧
      ((ps.map fun p => p - centre ps).map fun r => dot (beside A r) (beside A r)).sum ≤ (Real.sqrt ps.length * e) ^ 2 := by
  have hn : (0 : ℝ) < ps.length := by
    have := List.length_pos_of_ne_nil hne
    exact_mod_cast this
  set m := centre ps with hm
  have hsum : ps.sum = (ps.length : ℝ) • m := by
    rw [hm]
    unfold centre
    rw [smul_smul, mul_inv_cancel₀ hn.ne', one_smul]
  -- sum of squares around the centre
  have key : ∀ (l : List Vec3) (m : Vec3), (l.map fun p => dot (beside A (p - q)) (beside A (p - q))).sum =
      (l.map fun p => dot (beside A (p - m)) (beside A (p - m))).sum + 2 * dot (beside A (l.sum - (l.length : ℝ) • m)) (beside A (m - q)) +
        l.length * dot (beside A (m - q)) (beside A (m - q)) := by
    intro l m
    induction l with
    | nil => simp [dot_expand, beside]
    | cons p l ih =>
      simp only [List.map_cons, List.sum_cons, List.length_cons, ih]
      unfold beside
      simp only [dot_expand, Pi.sub_apply, Pi.smul_apply, Pi.add_apply, smul_eq_mul]
      push_cast
      ring
  have h1 := key ps m
  rw [hsum, sub_self] at h1
  have h0 : dot (beside A 0) (beside A (m - q)) = 0 := by
    simp [dot_expand, beside]
  rw [h0, mul_zero, add_zero] at h1
  have h2 : (ps.map fun p => dot (beside A (p - q)) (beside A (p - q))).sum ≤ ps.length * e ^ 2 := by
    have := List.sum_le_card_nsmul (ps.map fun p => dot (beside A (p - q)) (beside A (p - q))) (e ^ 2) (by
      intro x hx
      obtain ⟨p, hp, rfl⟩ := List.mem_map.mp hx
      exact h p hp)
    rw [List.length_map, nsmul_eq_mul] at this
    exact this
  have h3 : 0 ≤ (ps.map fun p => dot (beside A (p - m)) (beside A (p - m))).sum := by
    apply List.sum_nonneg
    intro x hx
    obtain ⟨r, -, rfl⟩ := List.mem_map.mp hx
    exact Angle.dot_self_nonneg _
  have h4 := Angle.dot_self_nonneg (beside A (m - q))
  refine ⟨?_, ?_⟩
  · apply abs_le_of_sq_le_sq' _ he |>.2
    rw [nrm_sq]
    have : ps.length * dot (beside A (m - q)) (beside A (m - q)) ≤ ps.length * e ^ 2 := by linarith
    exact le_of_mul_le_mul_left this hn
  · rw [List.map_map, mul_pow, Real.sq_sqrt hn.le]
    have := mul_nonneg hn.le h4
    show (ps.map fun p => dot (beside A (p - m)) (beside A (p - m))).sum ≤ _
    linarith

theorem sideways_nrm (p q : Vec3) (h : p 2 = q 2) : sideways p q = nrm (p - q) := by
  unfold sideways nrm
  simp only [dot_expand, Pi.sub_apply, h]
  congr 1
  ring

/-- The fitted line at any z. -/
theorem line_error (ps : List Vec3) (hne : ps ≠ []) (q v u : Vec3) (hv : v 2 ≠ 0) (err : ℝ)
    (hnear : ∀ p ∈ ps, ∃ t : ℝ, (q + t • v) 2 = p 2 ∧ sideways p (q + t • v) ≤ err)
    (hu : IsFirstSingular (ps.map fun p => p - centre ps) u)
    (hS : Real.sqrt ps.length * err < Real.sqrt (ps.map fun p => (p 2 - centre ps 2) ^ 2).sum) :
    u 2 ≠ 0 ∧ ∀ s t : ℝ, (centre ps + s • u) 2 = (q + t • v) 2 →
      sideways (centre ps + s • u) (q + t • v) ≤ err + |(q + t • v) 2 - centre ps 2| *
        (Real.sqrt ps.length * err * (1 + Real.sqrt (dot v v) / |v 2|) / (Real.sqrt (ps.map fun p => (p 2 - centre ps 2) ^ 2).sum - Real.sqrt ps.length * err)) := by
  set A := (v 2)⁻¹ • v with hA
  have hA2 : A 2 = 1 := by
    rw [hA, Pi.smul_apply, smul_eq_mul, inv_mul_cancel₀ hv]
  have hnA : nrm A = Real.sqrt (dot v v) / |v 2| := by
    rw [hA, nrm_smul, abs_inv]
    unfold nrm
    rw [div_eq_mul_inv, mul_comm]
  have hpt : ∀ t : ℝ, q + t • v = q + ((q + t • v) 2 - q 2) • A := by
    intro t
    ext i
    simp only [hA, Pi.add_apply, Pi.smul_apply, smul_eq_mul]
    field_simp
    ring
  have herr : 0 ≤ err := by
    obtain ⟨p, hp⟩ := List.exists_mem_of_ne_nil ps hne
    obtain ⟨t, -, h⟩ := hnear p hp
    exact le_trans (Real.sqrt_nonneg _) h
  have hbes : ∀ p ∈ ps, dot (beside A (p - q)) (beside A (p - q)) ≤ err ^ 2 := by
    intro p hp
    obtain ⟨t, h1, h2⟩ := hnear p hp
    have e : beside A (p - q) = p - (q + t • v) := by
      rw [hpt t, h1]
      unfold beside
      rw [Pi.sub_apply, sub_sub]
    rw [e, ← nrm_sq, ← sideways_nrm _ _ h1.symm]
    exact pow_le_pow_left₀ (Real.sqrt_nonneg _) h2 2
  obtain ⟨c1, c2⟩ := centre_error ps hne q A err herr hbes
  have hrows : ((ps.map fun p => p - centre ps).map fun r => r 2 ^ 2) = ps.map fun p => (p 2 - centre ps 2) ^ 2 := by
    rw [List.map_map]
    rfl
  obtain ⟨d1, d2⟩ := slope_error _ A u hA2 hu (Real.sqrt ps.length * err) (mul_nonneg (Real.sqrt_nonneg _) herr) c2 (by rw [hrows]; exact hS)
  rw [hrows, hnA] at d2
  refine ⟨d1, fun s t hst => ?_⟩
  rw [sideways_nrm _ _ hst]
  set z := (q + t • v) 2 with hz
  have e1 : centre ps + s • u - (q + t • v) = beside A (centre ps - q) - (z - centre ps 2) • (A - (u 2)⁻¹ • u) := by
    have hs : s = (z - centre ps 2) * (u 2)⁻¹ := by
      rw [← hst]
      simp only [Pi.add_apply, Pi.smul_apply, smul_eq_mul]
      field_simp
      ring
    rw [hpt t, ← hz, hs]
    ext i
    simp only [beside, Pi.add_apply, Pi.sub_apply, Pi.smul_apply, smul_eq_mul]
    ring
  rw [e1]
  refine le_trans (nrm_sub_le _ _) (add_le_add c1 ?_)
  rw [nrm_smul]
  exact mul_le_mul_of_nonneg_left d2 (abs_nonneg _)

end BTA.Line.Error
