import Verif.Spec.PrealignChain
import Verif.Props.Prealign
/-
C210: pre-alignment with uncorrelated bins.
-/
namespace BTA.Props
open BTA.Prealign BTA.Prealign.Spec BTA.Dut BTA.Geo

/-! ### Helper lemmas -/

theorem bad_add (nd : Node) (s pos : ℝ) : bad nd s pos + Set.ncard {i | Shows nd s pos i} = nd.data.length := by
  have h1 : {i : Nat | i < nd.data.length ∧ ¬ Shows nd s pos i} ∪ {i | Shows nd s pos i} = Set.Iio nd.data.length := by
    ext i
    simp only [Set.mem_union, Set.mem_setOf_eq, Set.mem_Iio]
    constructor
    · rintro (h | ⟨h, -⟩)
      · exact h.1
      · exact h
    · intro h
      by_cases hs : Shows nd s pos i
      · exact .inr hs
      · exact .inl ⟨h, hs⟩
  have hf : (Set.Iio nd.data.length).Finite := Set.finite_Iio _
  have h2 := Set.ncard_union_eq (s := {i : Nat | i < nd.data.length ∧ ¬ Shows nd s pos i}) (t := {i | Shows nd s pos i})
    (Set.disjoint_left.mpr fun i h h' => h.2 h') (hf.subset fun i h => h.1) (hf.subset fun i h => h.1)
  rw [h1, ncard_Iio] at h2
  exact h2.symm

theorem shows_finite (nd : Node) (s pos : ℝ) : Set.Finite {i | Shows nd s pos i} := (Set.finite_Iio nd.data.length).subset fun _ h => h.1

/-- The selected line has at least as many bins as show the correlation. -/
theorem shows_support {nd : Node} (hreg : Regular nd) {l : Line} (b : Best nd l) {s pos : ℝ} (hs : s = 1 ∨ s = -1) :
    Set.ncard {i | Shows nd s pos i} ≤ (supportSet nd b.theta b.rho).ncard := by
  obtain ⟨t, hct, hst, hbest⟩ := best_diag hreg b hs
  have hb := hreg.res
  have hss : s * s = 1 := by rcases hs with rfl | rfl <;> norm_num
  set K : ℝ := -s * ((pos - nd.refExtent.1) / nd.resolution - 1 / 2 + s * (1 / 2 - nd.data.length / 2)) with hK
  refine le_trans (Set.ncard_le_ncard (t := supportSet nd t (⌈Real.sqrt 2 / 2 * K - 1 / 2⌉ : ℤ)) (fun i hi => ?_) (supportSet_finite _ _ _)) (hbest _)
  obtain ⟨h, j, hj, hcor⟩ := hi
  refine ⟨h, j, hj, ?_⟩
  have hk : (i : ℝ) - s * j = K := by
    have hx : nd.dutExtent.2 = nd.dutExtent.1 + nd.data.length * nd.resolution := by linarith [hreg.extent]
    unfold refCentre dutCentre dutMiddle at hcor
    rw [hx] at hcor
    have e1 : (j : ℝ) = (pos - nd.refExtent.1) / nd.resolution - 1 / 2 + s * (i + 1 / 2 - nd.data.length / 2) := by
      have : (pos - nd.refExtent.1) = ((j + 1 / 2) - s * (i + 1 / 2 - nd.data.length / 2)) * nd.resolution := by linarith
      rw [this, mul_div_cancel_right₀ _ hb.ne']
      ring
    rw [e1, hK]
    linear_combination (-(i : ℝ)) * hss
  have e : (i : ℝ) * Real.cos t + j * Real.sin t = Real.sqrt 2 / 2 * K := by
    rw [hct, hst, ← hk]
    ring
  rw [e]
  have c1 := Int.le_ceil (Real.sqrt 2 / 2 * K - 1 / 2)
  have c2 := Int.ceil_lt_add_one (Real.sqrt 2 / 2 * K - 1 / 2)
  constructor <;> linarith

/-- A set with more bins than are not correlated has a bin on the selected line. -/
theorem shared {nd : Node} (hreg : Regular nd) {l : Line} (b : Best nd l) {s pos : ℝ} (hs : s = 1 ∨ s = -1) (A : Set Nat)
    (hA : A ⊆ Set.Iio nd.data.length) (hc : bad nd s pos < A.ncard) : ∃ i ∈ A, i ∈ supportSet nd b.theta b.rho := by
  by_contra hno
  push Not at hno
  have h1 := shows_support hreg b (pos := pos) hs
  have h2 := bad_add nd s pos
  have hf : (Set.Iio nd.data.length).Finite := Set.finite_Iio _
  have h3 := Set.ncard_union_eq (s := A) (t := supportSet nd b.theta b.rho) (Set.disjoint_left.mpr hno) (hf.subset hA) (supportSet_finite _ _ _)
  have h4 := Set.ncard_le_ncard (Set.union_subset hA (supportSet_sub nd b.theta b.rho)) hf
  rw [ncard_Iio] at h4
  omega

/-- Distance of the expected position from the line at a correlated bin on the line. -/
theorem near_shows {nd : Node} (hreg : Regular nd) {l : Line} (b : Best nd l) {s pos : ℝ} {i : Nat} (hc : Shows nd s pos i)
    (hi : i ∈ supportSet nd b.theta b.rho) :
    |(l.slope - s) * nd.resolution * (i - ((nd.data.length : ℝ) - 1) / 2) + (nd.offsetCenter l - pos)| ≤ 3 / 4 * nd.resolution := by
  obtain ⟨hi, j, hj, h1, h2⟩ := hi
  obtain ⟨_, j', hj', hcor⟩ := hc
  obtain rfl : j' = j := by rw [← peak_eq hj, ← peak_eq hj']
  have hn := near b h1 h2
  have hb := hreg.res
  have e1 : (l.slope - s) * nd.resolution * (i - ((nd.data.length : ℝ) - 1) / 2) + (nd.offsetCenter l - pos)
      = nd.resolution * (l.slope * i + l.offset - j') + (refCentre nd j' - (s * (dutCentre nd i - dutMiddle nd) + pos)) := by
    have hx := hreg.extent
    have e2 : dutCentre nd i - dutMiddle nd = nd.resolution * (i - ((nd.data.length : ℝ) - 1) / 2) := by
      unfold dutCentre dutMiddle
      have : nd.dutExtent.2 = nd.dutExtent.1 + nd.data.length * nd.resolution := by linarith
      rw [this]
      ring
    rw [e2]
    unfold Node.offsetCenter Node.offset refCentre
    rw [hx]
    ring
  rw [e1, hcor, sub_self, add_zero, abs_mul, abs_of_pos hb]
  nlinarith

/-- Position and slope of the selected line. -/
theorem line_robust {nd : Node} (hreg : Regular nd) {l : Line} (b : Best nd l) {s pos : ℝ} (hs : s = 1 ∨ s = -1)
    (hc : MostlyCorrelated nd s pos) : |nd.offsetCenter l - pos| ≤ 3 / 4 * nd.resolution ∧ |l.slope - s| ≤ 1 / 10 := by
  obtain ⟨i, ⟨hi2, hiS⟩, hi⟩ := shared hreg b hs _ (fun i h => h.2.1) hc.left
  obtain ⟨k, ⟨hk2, hkS⟩, hk⟩ := shared hreg b hs _ (fun i h => h.2.1) hc.right
  have h0 := near_shows hreg b hiS hi
  have h1 := near_shows hreg b hkS hk
  have hbp := hreg.res
  have hi' : (i : ℝ) - ((nd.data.length : ℝ) - 1) / 2 < 0 := by
    have : (2 : ℝ) * i + 1 < nd.data.length := by exact_mod_cast hi2
    linarith
  have hk' : 0 < (k : ℝ) - ((nd.data.length : ℝ) - 1) / 2 := by
    have : (nd.data.length : ℝ) < 2 * k + 1 := by exact_mod_cast hk2
    linarith
  have hik : (1 : ℝ) ≤ k - i := by
    have : i + 1 ≤ k := by omega
    have : (i : ℝ) + 1 ≤ k := by exact_mod_cast this
    linarith
  constructor
  · generalize (i : ℝ) - ((nd.data.length : ℝ) - 1) / 2 = u at h0 hi'
    generalize (k : ℝ) - ((nd.data.length : ℝ) - 1) / 2 = w at h1 hk'
    rw [abs_le] at h0 h1 ⊢
    constructor <;> nlinarith [h0.1, h0.2, h1.1, h1.2]
  · rw [abs_le] at h0 h1
    have hd1 : (l.slope - s) * (k - i) * nd.resolution ≤ 3 / 2 * nd.resolution := by linarith [h0.1, h1.2]
    have hd2 : -(3 / 2) * nd.resolution ≤ (l.slope - s) * (k - i) * nd.resolution := by linarith [h0.2, h1.1]
    have d1 : (l.slope - s) * (k - i) ≤ 3 / 2 := le_of_mul_le_mul_right hd1 hbp
    have d2 : -(3 / 2) ≤ (l.slope - s) * (k - i) := le_of_mul_le_mul_right hd2 hbp
    rcases hs with rfl | rfl
    · rcases b.proper with h | h
      · exact h
      · rw [abs_le] at h; nlinarith [h.1, h.2]
    · rcases b.proper with h | h
      · rw [abs_le] at h; nlinarith [h.1, h.2]
      · rw [sub_neg_eq_add]; exact h

/-! ### C210 -/

/-- C210: it is enough that less than a quarter of the bins are not correlated. -/
theorem C210_quarter (nd : Node) (s pos : ℝ) (h : 4 * bad nd s pos + 2 ≤ nd.data.length) : MostlyCorrelated nd s pos := by
  have key : ∀ P : Nat → Prop, (nd.data.length / 2 ≤ Set.ncard {i | i < nd.data.length ∧ P i}) →
      bad nd s pos < Set.ncard {i : Nat | P i ∧ Shows nd s pos i} := by
    intro P hP
    have hf : (Set.Iio nd.data.length).Finite := Set.finite_Iio _
    have hsub : {i | i < nd.data.length ∧ P i} ⊆ {i : Nat | P i ∧ Shows nd s pos i} ∪ {i : Nat | i < nd.data.length ∧ ¬ Shows nd s pos i} := by
      rintro i ⟨hi, hp⟩
      by_cases hs : Shows nd s pos i
      · exact .inl ⟨hp, hs⟩
      · exact .inr ⟨hi, hs⟩
    have h1 := Set.ncard_le_ncard hsub ((hf.subset fun i h => h.2.1).union (hf.subset fun i h => h.1))
    have h2 := Set.ncard_union_le {i : Nat | P i ∧ Shows nd s pos i} {i : Nat | i < nd.data.length ∧ ¬ Shows nd s pos i}
    have h3 : bad nd s pos = Set.ncard {i : Nat | i < nd.data.length ∧ ¬ Shows nd s pos i} := rfl
    omega
  constructor
  · refine key _ ?_
    have : {i | i < nd.data.length ∧ 2 * i + 1 < nd.data.length} = ((Finset.range (nd.data.length / 2) : Finset Nat) : Set Nat) := by
      ext i
      simp only [Set.mem_setOf_eq, Finset.coe_range, Set.mem_Iio]
      omega
    rw [this, Set.ncard_coe_finset, Finset.card_range]
  · refine key _ ?_
    have : {i | i < nd.data.length ∧ nd.data.length < 2 * i + 1} = ((Finset.Ico ((nd.data.length + 1) / 2) nd.data.length : Finset Nat) : Set Nat) := by
      ext i
      simp only [Set.mem_setOf_eq, Finset.coe_Ico, Set.mem_Ico]
      omega
    rw [this, Set.ncard_coe_finset, Nat.card_Ico]
    omega

/-- C210: the position and the direction that are found along one axis are correct in spite of the bins without correlation, whatever their content. -/
theorem C210_axis (env : Env) (hs : Sorts env) (nd : Node) (hreg : Regular nd) (ps : ℝ) (f : Fit) (h : fitAxis env nd ps = .ok f)
    (s pos : ℝ) (hsg : s = 1 ∨ s = -1) (hc : MostlyCorrelated nd s pos) :
    |f.offsetCenter - pos| ≤ 3 / 4 * nd.resolution ∧ |f.slope - s| ≤ 1 / 10 := by
  obtain ⟨l, hl, hsl, hoff, -⟩ := fitAxis_ok h
  obtain ⟨-, -, ⟨b⟩⟩ := line_ok hs hreg hl
  rw [hsl, hoff]
  exact line_robust hreg b hsg hc

/-- C210: the translation of an aligned DUT is correct within three quarters of a bin in spite of the bins without correlation. -/
theorem C210_position (env : Env) (hs : Sorts env) (file : File) (tel tel' : List PDut) (same : Bool) (sel : Option (List Nat))
    (ref i : Nat) (h : prealign env file tel same sel ref = .ok tel') (hi : Aligned tel.length ref sel i) (nx ny : Node)
    (hx : file i true = some nx) (hy : file i false = some ny) (hrx : Regular nx) (hry : Regular ny) (sx posx sy posy : ℝ)
    (hsx : sx = 1 ∨ sx = -1) (hsy : sy = 1 ∨ sy = -1) (hcx : MostlyCorrelated nx sx posx) (hcy : MostlyCorrelated ny sy posy) :
    ∃ d', tel'[i]? = some d' ∧ |d'.align.x - posx| ≤ 3 / 4 * nx.resolution ∧ |d'.align.y - posy| ≤ 3 / 4 * ny.resolution := by
  obtain ⟨d, nx', ny', fx, fy, mx, my, al, be, ga, -, hx', hy', hfx, hfy, -, -, -, hd'⟩ := prealign_fits h hi
  rw [hx] at hx'
  rw [hy] at hy'
  obtain rfl := Option.some.inj hx'
  obtain rfl := Option.some.inj hy'
  exact ⟨_, hd', (C210_axis env hs nx hrx _ fx hfx sx posx hsx hcx).1, (C210_axis env hs ny hry _ fy hfy sy posy hsy hcy).1⟩

theorem dutCentre_inj {nd : Node} (hreg : Regular nd) {k k' : Nat} (e4 : dutCentre nd k = dutCentre nd k') : k = k' := by
  unfold dutCentre at e4
  have e5 : ((k : ℝ) + 1 / 2) * nd.resolution = (k' + 1 / 2) * nd.resolution := by linarith
  have e6 := mul_right_cancel₀ hreg.res.ne' e5
  have : (k : ℝ) = k' := by linarith
  exact_mod_cast this

/-- C210: with the reference at zero, the fit succeeds in spite of the bins without correlation. -/
theorem C210_succeeds (env : Env) (hs : Sorts env) (hdens : ∀ xs x, 0 < env.density xs x) (nd : Node) (hreg : Regular nd)
    (hn : 3 ≤ nd.data.length) (href : refMiddle nd = 0) (s pos : ℝ) (hsg : s = 1 ∨ s = -1)
    (hc : MostlyCorrelated nd s pos) (ps : ℝ) (hps : 3 / 4 * nd.resolution < ps * Real.sqrt 12 * 2) :
    ∃ f, fitAxis env nd ps = .ok f ∧ |f.offsetCenter - pos| ≤ 3 / 4 * nd.resolution ∧ |f.slope - s| ≤ 1 / 10 := by
  have hb : nd.refBins ≠ 0 := by
    obtain ⟨i, -, h, j, ⟨hj, -⟩, -⟩ := Set.nonempty_of_ncard_ne_zero (Nat.ne_of_gt (Nat.lt_of_le_of_lt (Nat.zero_le _) hc.left))
    intro h0
    rw [hreg.rows _ (List.getElem_mem h), h0] at hj
    omega
  obtain ⟨l, hl⟩ := line_exists env hs nd hreg (by omega) hb
  obtain ⟨-, hd, ⟨b⟩⟩ := line_ok hs hreg hl
  have hres := hreg.res
  set F := {i | Shows nd s pos i} ∩ supportSet nd b.theta b.rho with hF
  have hmem : ∀ k ∈ F, ∀ h : k < nd.data.length, argmax nd.data[k] ≠ 0 → dutCentre nd k ∈ nd.inliers l ps := by
    rintro k ⟨-, hm⟩ h hk
    refine (mem_inliers hreg hd l ps _).mpr ⟨k, h, hk, rfl, ?_⟩
    obtain ⟨_, j, hj, h1, h2⟩ := hm
    have hnear := near b h1 h2
    rw [peak_eq hj, href, add_zero, abs_mul, abs_of_pos hres]
    nlinarith
  have hdiff : ∀ k ∈ F, ∀ k' ∈ F, ∀ (h : k < nd.data.length) (h' : k' < nd.data.length), argmax nd.data[k] = 0 → argmax nd.data[k'] = 0 → k = k' := by
    rintro k ⟨⟨_, j, hj, e1⟩, -⟩ k' ⟨⟨_, j', hj', e2⟩, -⟩ h h' he he'
    rw [peak_eq hj] at he
    rw [peak_eq hj'] at he'
    subst he
    subst he'
    have e3 : s * (dutCentre nd k - dutCentre nd k') = 0 := by linarith
    have hs0 : s ≠ 0 := by rcases hsg with rfl | rfl <;> norm_num
    refine dutCentre_inj hreg ?_
    rcases mul_eq_zero.mp e3 with h | h
    · exact absurd h hs0
    · linarith
  have hfin : F.Finite := (shows_finite nd s pos).subset Set.inter_subset_left
  have h3 : 3 ≤ F.ncard := by
    have h1 := shows_support hreg b (pos := pos) hsg
    have h2 := bad_add nd s pos
    have hf : (Set.Iio nd.data.length).Finite := Set.finite_Iio _
    have h0 : {i | Shows nd s pos i} ⊆ Set.Iio nd.data.length := fun i h => h.1
    have h4 : _ ≤ (Set.Iio nd.data.length).ncard := Set.ncard_le_ncard (Set.union_subset h0 (supportSet_sub nd b.theta b.rho)) hf
    rw [ncard_Iio] at h4
    have h5 := Set.ncard_union_add_ncard_inter {i | Shows nd s pos i} (supportSet nd b.theta b.rho) (shows_finite nd s pos)
      (supportSet_finite _ _ _)
    have h6 := hc.left
    have h7 := hc.right
    have h8 := Set.ncard_union_eq (s := {i : Nat | 2 * i + 1 < nd.data.length ∧ Shows nd s pos i})
      (t := {i : Nat | nd.data.length < 2 * i + 1 ∧ Shows nd s pos i}) (Set.disjoint_left.mpr fun i h h' => by
        have := h.1
        have := h'.1
        omega) (hf.subset fun i h => h.2.1) (hf.subset fun i h => h.2.1)
    have h9 := Set.ncard_le_ncard (Set.union_subset (fun i h => h.2) (fun i h => h.2) :
      {i : Nat | 2 * i + 1 < nd.data.length ∧ Shows nd s pos i} ∪ {i : Nat | nd.data.length < 2 * i + 1 ∧ Shows nd s pos i} ⊆
        {i | Shows nd s pos i}) (shows_finite nd s pos)
    rw [← hF] at h5
    omega
  obtain ⟨k, hk, k', hk', hne, h1, h2⟩ : ∃ k ∈ F, ∃ k' ∈ F, k ≠ k' ∧ (∀ h : k < nd.data.length, argmax nd.data[k] ≠ 0) ∧
      ∀ h : k' < nd.data.length, argmax nd.data[k'] ≠ 0 := by
    obtain ⟨x, y, z, hx, hy, hz, hxy, hxz, hyz⟩ := (Set.two_lt_ncard_iff hfin).mp h3
    have hl : ∀ k ∈ F, k < nd.data.length := fun k hk => hk.1.1
    by_cases h0 : argmax (nd.data[x]'(hl x hx)) = 0
    · exact ⟨y, hy, z, hz, hyz, fun h e => hxy (hdiff x hx y hy (hl x hx) h h0 e), fun h e => hxz (hdiff x hx z hz (hl x hx) h h0 e)⟩
    · by_cases h1 : argmax (nd.data[y]'(hl y hy)) = 0
      · exact ⟨x, hx, z, hz, hxz, fun h => h0, fun h e => hyz (hdiff y hy z hz (hl y hy) h h1 e)⟩
      · exact ⟨x, hx, y, hy, hxy, fun h => h0, fun h => h1⟩
  obtain ⟨f, hf, hsl, hoff⟩ := fitAxis_exists hl hd hdens (hmem k hk hk.1.1 (h1 hk.1.1)) (hmem k' hk' hk'.1.1 (h2 hk'.1.1))
    fun e => hne (dutCentre_inj hreg e)
  exact ⟨f, hf, by rw [hoff]; exact (line_robust hreg b hsg hc).1, by rw [hsl]; exact (line_robust hreg b hsg hc).2⟩

/-! ### Example -/

/-- The centre of the DUT has no correlation. -/
theorem exNode_mostly : MostlyCorrelated (exNode [0, 1, 4, 3, 4]) 1 0 := by
  have hshow : ∀ i, i < 5 → i ≠ 2 → Shows (exNode [0, 1, 4, 3, 4]) 1 0 i := by
    intro i hi hne
    refine ⟨hi, i, ?_, ?_⟩
    · interval_cases i
      · exact exRow_peak _ (by norm_num)
      · exact exRow_peak _ (by norm_num)
      · exact absurd rfl hne
      · exact exRow_peak _ (by norm_num)
      · exact exRow_peak _ (by norm_num)
    · simp only [refCentre, dutCentre, dutMiddle, exNode]
      ring
  have hbad : bad (exNode [0, 1, 4, 3, 4]) 1 0 ≤ 1 := by
    have hsub : {i : Nat | i < (exNode [0, 1, 4, 3, 4]).data.length ∧ ¬ Shows (exNode [0, 1, 4, 3, 4]) 1 0 i} ⊆ {2} := by
      rintro i ⟨hi, hno⟩
      by_contra h
      exact hno (hshow i hi h)
    have := Set.ncard_le_ncard hsub (Set.finite_singleton 2)
    rw [Set.ncard_singleton] at this
    exact this
  have count : ∀ (P : Nat → Prop) (a b : Nat), a ≠ b → P a → P b → Shows (exNode [0, 1, 4, 3, 4]) 1 0 a → Shows (exNode [0, 1, 4, 3, 4]) 1 0 b →
      bad (exNode [0, 1, 4, 3, 4]) 1 0 < Set.ncard {i : Nat | P i ∧ Shows (exNode [0, 1, 4, 3, 4]) 1 0 i} := by
    intro P a b hab ha hb sa sb
    have hsub : ({a, b} : Set Nat) ⊆ {i : Nat | P i ∧ Shows (exNode [0, 1, 4, 3, 4]) 1 0 i} := by
      rintro i (rfl | rfl)
      · exact ⟨ha, sa⟩
      · exact ⟨hb, sb⟩
    have := Set.ncard_le_ncard hsub ((shows_finite (exNode [0, 1, 4, 3, 4]) 1 0).subset fun i h => h.2)
    rw [Set.ncard_pair hab] at this
    omega
  exact ⟨count _ 0 1 (by norm_num) (by simp [exNode]) (by simp [exNode]) (hshow _ (by norm_num) (by norm_num)) (hshow _ (by norm_num) (by norm_num)),
    count _ 3 4 (by norm_num) (by simp [exNode]) (by simp [exNode]) (hshow _ (by norm_num) (by norm_num)) (hshow _ (by norm_num) (by norm_num))⟩

/-- C210: the fit of the example succeeds and is correct. -/
example : ∃ f, fitAxis exEnv (exNode [0, 1, 4, 3, 4]) 1 = .ok f ∧ |f.offsetCenter| ≤ 3 / 4 ∧ |f.slope - 1| ≤ 1 / 10 := by
  obtain ⟨f, hf, h1, h2⟩ := C210_succeeds exEnv exEnv_sorts (fun _ _ => one_pos) _ (exNode_regular [0, 1, 4, 3, 4] rfl) (by simp [exNode])
    (by simp [refMiddle, exNode]) 1 0 (.inl rfl) exNode_mostly 1 (by
      have := sqrt12
      show 3 / 4 * (1 : ℝ) < _
      linarith)
  rw [sub_zero] at h1
  have e : (exNode [0, 1, 4, 3, 4]).resolution = 1 := rfl
  rw [e, mul_one] at h1
  exact ⟨f, hf, h1, h2⟩

end BTA.Props
