import Verif.Lemmas.Prealign
import Verif.Props.Geometry
import Mathlib.Data.List.Sort
import Mathlib.Tactic.IntervalCases
/-
Properties C102-C108: Hough transformation and pre-alignment (`hough_transform`, `prealign`).
-/
namespace BTA.Props
open BTA.Prealign BTA.Prealign.Spec BTA.Dut BTA.Geo

/-! ### C102: Hough transformation -/

/-- C102: every cell of the accumulator is the number of set pixels whose distance is the one of the cell, rounded to the grid. -/
theorem C102_votes (img : Image) (thetaRes rhoRes : ℝ) (hres : 0 < rhoRes) (r t : Nat) (hr : r < (hough img thetaRes rhoRes).rhos.length)
    (ht : t < (hough img thetaRes rhoRes).thetas.length) :
    (hough img thetaRes rhoRes).acc r t =
      votes img (hough img thetaRes rhoRes).thetas[t] (hough img thetaRes rhoRes).rhos[r] rhoRes :=
  hough_acc img thetaRes rhoRes hres r t hr ht

/-- C102: the angles go from -90 to 90 degrees in equal steps that are not larger than requested, the distances are all multiples of the
resolution up to the length of the diagonal of the image. -/
theorem C102_grid (img : Image) (thetaRes rhoRes : ℝ) (ht : 0 < thetaRes) (hr : 0 < rhoRes) :
    (∃ n : Nat, 0 < n ∧ 90 / (n : ℝ) ≤ thetaRes ∧ (hough img thetaRes rhoRes).thetas.length = 2 * n + 1 ∧
      ∀ i (h : i < (hough img thetaRes rhoRes).thetas.length),
        (hough img thetaRes rhoRes).thetas[i] = (-90 + i * (90 / (n : ℝ))) * (Real.pi / 180)) ∧
    ∃ q : Nat, Real.sqrt (((img.rows : ℝ) - 1) ^ 2 + ((img.cols : ℝ) - 1) ^ 2) ≤ q * rhoRes ∧
      (hough img thetaRes rhoRes).rhos.length = 2 * q + 1 ∧
      ∀ i (h : i < (hough img thetaRes rhoRes).rhos.length), (hough img thetaRes rhoRes).rhos[i] = ((i : ℝ) - q) * rhoRes := by
  have h90 : 0 < 90 / thetaRes := by positivity
  have hn : 0 < ⌈90 / thetaRes⌉₊ := Nat.ceil_pos.mpr h90
  refine ⟨⟨⌈90 / thetaRes⌉₊, hn, ?_, thetas_length _, fun i h => thetas_get _ hn i h⟩,
    halfRhos img.rows img.cols rhoRes, ?_, rhos_length _ _, fun i h => rhos_get _ _ i h⟩
  · rw [div_le_comm₀ (by exact_mod_cast hn) ht]
    exact Nat.le_ceil _
  · rw [← div_le_iff₀ hr]
    exact Nat.le_ceil _

/-- C102: every set pixel has exactly one vote for every angle. -/
theorem C102_every_pixel (img : Image) (thetaRes rhoRes : ℝ) (t : Nat) (ht : t < (hough img thetaRes rhoRes).thetas.length) :
    ∑ r ∈ Finset.range (hough img thetaRes rhoRes).rhos.length, (hough img thetaRes rhoRes).acc r t = setPixels img := by
  classical
  have hacc : ∀ r, (hough img thetaRes rhoRes).acc r t = img.nonzero.countP fun p =>
      rhoIndex (hough img thetaRes rhoRes).rhos (hough img thetaRes rhoRes).thetas[t] p = r := by
    intro r
    have := pixelLoop_get (hough img thetaRes rhoRes).rhos (hough img thetaRes rhoRes).thetas r t ht img.nonzero fun _ _ => 0
    rw [Nat.zero_add] at this
    rw [← this]
    rfl
  have hlt : ∀ p, rhoIndex (hough img thetaRes rhoRes).rhos (hough img thetaRes rhoRes).thetas[t] p
      < (hough img thetaRes rhoRes).rhos.length := by
    intro p
    have := (argmin_spec ((hough img thetaRes rhoRes).rhos.map fun r => |r - (p.2 * Real.cos (hough img thetaRes rhoRes).thetas[t]
      + p.1 * Real.sin (hough img thetaRes rhoRes).thetas[t])|) (by simp [hough, rhos])).1
    rw [List.length_map] at this
    exact this
  have hlen : ∀ l : List (Nat × Nat), ∑ r ∈ Finset.range (hough img thetaRes rhoRes).rhos.length, l.countP (fun p =>
      rhoIndex (hough img thetaRes rhoRes).rhos (hough img thetaRes rhoRes).thetas[t] p = r) = l.length := by
    intro l
    induction l with
    | nil => simp
    | cons p l ih =>
      simp only [List.countP_cons, Finset.sum_add_distrib, ih, decide_eq_true_eq, List.length_cons]
      rw [Finset.sum_ite_eq, if_pos (Finset.mem_range.mpr (hlt p))]
  have hset : setPixels img = img.nonzero.length := by
    unfold setPixels
    have e : {p : Nat × Nat | p.1 < img.rows ∧ p.2 < img.cols ∧ img.pix p.1 p.2 = true} = (img.nonzero.toFinset : Set (Nat × Nat)) := by
      ext p
      simp [nonzero_mem]
    rw [e, Set.ncard_coe_finset, List.toFinset_card_of_nodup (nonzero_nodup img)]
  rw [hset, ← hlen img.nonzero]
  exact Finset.sum_congr rfl fun r _ => hacc r

/-- A 3 x 3 image with the pixels of the diagonal. -/
def exImage : Image := ⟨3, 3, fun y x => y == x⟩

/-- The example has three set pixels; all of them are on the line with the angle -45 degrees and the distance 0. -/
example : setPixels exImage = 3 ∧ votes exImage (-(Real.pi / 4)) 0 1 = 3 := by
  have hs : setPixels exImage = 3 := by
    have e : {p : Nat × Nat | p.1 < exImage.rows ∧ p.2 < exImage.cols ∧ exImage.pix p.1 p.2 = true}
        = (({(0, 0), (1, 1), (2, 2)} : Finset (Nat × Nat)) : Set (Nat × Nat)) := by
      ext ⟨y, x⟩
      simp [exImage]
      omega
    unfold setPixels
    rw [e, Set.ncard_coe_finset]
    rfl
  refine ⟨hs, ?_⟩
  refine Eq.trans ?_ hs
  unfold votes setPixels
  congr 1
  ext ⟨y, x⟩
  simp only [Set.mem_setOf_eq, Real.cos_neg, Real.sin_neg, Real.cos_pi_div_four, Real.sin_pi_div_four, exImage, beq_iff_eq]
  constructor
  · rintro ⟨h1, h2, h3, -⟩
    exact ⟨h1, h2, h3⟩
  · rintro ⟨h1, h2, rfl⟩
    refine ⟨h1, h2, rfl, ?_, ?_⟩ <;> ring_nf <;> norm_num

/-! ### C103: the line -/

/-- C103: the line which is used has a slope of about 1 or -1, and no line of the grid with such a slope is supported by more bins of the DUT.
The position that is used is the one at the centre of the DUT. -/
theorem C103_line (env : Env) (hs : Sorts env) (nd : Node) (hreg : Regular nd) (ps : ℝ) (f : Fit) (h : fitAxis env nd ps = .ok f) :
    ∃ theta ∈ (hough nd.image (1 / 10) 1).thetas, ∃ rho ∈ (hough nd.image (1 / 10) 1).rhos,
      -- the line x * cos theta + y * sin theta = rho in units of bins
      (∀ x y : ℝ, x * Real.cos theta + y * Real.sin theta = rho ↔ y = f.slope * (x - ((nd.data.length : ℝ) - 1) / 2)
        + (f.offsetCenter - refCentre nd 0) / nd.resolution) ∧
      (|f.slope - 1| ≤ 1 / 10 ∨ |f.slope + 1| ≤ 1 / 10) ∧
      ∀ theta' ∈ (hough nd.image (1 / 10) 1).thetas, ∀ rho' ∈ (hough nd.image (1 / 10) 1).rhos, ∀ m : ℝ,
        m * Real.sin theta' = -Real.cos theta' → (|m - 1| ≤ 1 / 10 ∨ |m + 1| ≤ 1 / 10) → support nd theta' rho' ≤ support nd theta rho := by
  obtain ⟨l, hl, hsl, hoff, -⟩ := fitAxis_ok h
  obtain ⟨hb, hd, ⟨b⟩⟩ := line_ok hs hreg hl
  refine ⟨b.theta, b.gridTheta, b.rho, b.gridRho, ?_, by rw [hsl]; exact b.proper, ?_⟩
  · intro x y
    have hne := b.sin_ne
    have hres := hreg.res.ne'
    have e : (nd.offsetCenter l - refCentre nd 0) / nd.resolution = l.offset + l.slope * (((nd.data.length : ℝ) - 1) / 2) := by
      unfold Node.offsetCenter Node.offset refCentre
      rw [hreg.extent]
      field_simp
      push_cast
      ring
    rw [hsl, hoff, e, b.slope, b.offset]
    constructor
    · intro hxy
      rw [← hxy]
      field_simp
      ring
    · rintro rfl
      field_simp
      ring
  · intro t ht r hr m hm hp
    have hne : Real.sin t ≠ 0 := by
      intro h0
      have := Real.sin_sq_add_cos_sq t
      rw [h0, mul_zero] at hm
      have hc : Real.cos t = 0 := by linarith
      rw [h0, hc] at this
      norm_num at this
    have em : -Real.cos t / Real.sin t = m := by rw [← hm]; field_simp
    exact b.best t ht r hr hne (by rw [em]; exact hp)

/-! ### C104: no correlation -/

/-- C104: the error for a missing correlation is never raised, whatever the histograms contain. -/
theorem C104_never (env : Env) (hs : Sorts env) (file : File) (hf : ∀ i b nd, file i b = some nd → Regular nd) (tel : List PDut)
    (same : Bool) (sel : Option (List Nat)) (ref : Nat) : prealign env file tel same sel ref ≠ .error .noCorrelation := by
  have axis : ∀ nd ps, Regular nd → fitAxis env nd ps ≠ .error .noCorrelation := by
    intro nd ps hreg h
    unfold fitAxis at h
    split at h
    · rename_i e he
      rw [Except.error.inj h] at he
      exact line_never env hs nd hreg he
    · rename_i l hl
      unfold posLimit at h
      split at h
      · rename_i e he
        split at he
        · rw [← Except.error.inj he] at h
          exact absurd h (by simp)
        · split at he
          · rw [← Except.error.inj he] at h
            exact absurd h (by simp)
          · exact absurd he (by simp)
      · exact absurd h (by simp)
  have dut : ∀ refOk i d, prealignDut env file refOk i d ≠ .error .noCorrelation := by
    intro refOk i d h
    unfold prealignDut at h
    rw [indexToGlobal_all] at h
    dsimp only at h
    split at h
    · exact absurd h (by simp)
    rename_i nx hnx
    split at h
    · exact absurd h (by simp)
    split at h
    · rename_i e he
      rw [Except.error.inj h] at he
      exact axis nx _ (hf _ _ _ hnx) he
    split at h
    · exact absurd h (by simp)
    rename_i ny hny
    split at h
    · rename_i e he
      rw [Except.error.inj h] at he
      exact axis ny _ (hf _ _ _ hny) he
    rename_i fx _ fy _
    unfold setDut at h
    rw [globalToLocal_inside] at h
    dsimp only at h
    split at h
    · split at h
      · exact absurd h (by simp)
      · exact absurd h (by simp)
    · exact absurd h (by simp)
  have loop : ∀ refOk is tel, dutLoop env file refOk is tel ≠ .error .noCorrelation := by
    intro refOk is
    induction is with
    | nil => intro tel h; exact absurd h (by simp [dutLoop])
    | cons i is ih =>
      intro tel h
      simp only [dutLoop] at h
      split at h
      · exact absurd h (by simp)
      split at h
      · rename_i e he
        rw [Except.error.inj h] at he
        exact dut _ _ _ he
      · exact ih _ h
  intro h
  unfold prealign at h
  split at h
  · exact absurd h (by simp)
  · exact loop _ _ _ h

/-- C104, part: a histogram without entries is reported (by another error). Missing: a histogram without correlation, see `C104_noise`. -/
theorem C104_empty_partial (env : Env) (file : File) (tel tel' : List PDut) (same : Bool) (sel : Option (List Nat)) (ref i : Nat)
    (hi : Aligned tel.length ref sel i) (b : Bool) (nd : Node) (hn : file i b = some nd) (hz : ∀ row ∈ nd.data, ∀ x ∈ row, x = 0) :
    prealign env file tel same sel ref ≠ .ok tel' := by
  have axis : ∀ ps f, fitAxis env nd ps ≠ .ok f := by
    intro ps f h
    obtain ⟨l, -, -, -, hlim⟩ := fitAxis_ok h
    have hmax : ∀ m ∈ nd.maxSelect, m = 0 := by
      intro m hm
      obtain ⟨row, hrow, rfl⟩ := List.mem_map.mp hm
      cases hr : row with
      | nil => rfl
      | cons a rest =>
        rw [hr] at hrow
        have h0 : ∀ k (hk : k < (a :: rest).length), (a :: rest)[k] = 0 := fun k hk => hz _ hrow _ (List.getElem_mem hk)
        refine peak_eq ⟨by simp, fun k hk => ?_, fun k hk => by omega⟩
        rw [h0 k hk, h0 0 (by simp)]
    have hpts : nd.points = [] := by
      unfold Node.points
      rw [List.map_eq_nil_iff, List.filter_eq_nil_iff]
      intro p hp
      have := hmax _ (List.of_mem_zip hp).2
      simp [this]
    have hin : nd.inliers l ps = [] := by
      unfold Node.inliers findInliers
      rw [hpts]
      rfl
    rw [inliers_few hin] at hlim
    exact absurd hlim (by simp)
  intro h
  obtain ⟨-, -, h1, -⟩ := (prealign_ok_iff _ _ _ _ _ _ _).mp h
  obtain ⟨d, d', -, hd, -⟩ := h1 i hi
  obtain ⟨-, nx, ny, fx, fy, hx, hy, hfx, hfy, -⟩ := (prealignDut_ok_iff _ _ _ _ _ _).mp hd
  cases b with
  | true =>
    rw [hn] at hx
    rw [← Option.some.inj hx] at hfx
    exact axis _ _ hfx
  | false =>
    rw [hn] at hy
    rw [← Option.some.inj hy] at hfy
    exact axis _ _ hfy

/-- C104: histograms without any correlation are accepted. If all entries of the reference are in one and the same bin, then the position on the
reference does not depend on the position on the DUT, but a position of the DUT is found. -/
theorem C104_noise (env : Env) (hs : Sorts env) (hdens : ∀ xs x, 0 < env.density xs x) (nd : Node) (hreg : Regular nd)
    (hn : 2 ≤ nd.data.length) (href : refMiddle nd = 0) (j : Nat) (hj : j ≠ 0)
    (hall : ∀ i (h : i < nd.data.length), IsPeak nd.data[i] j) (ps : ℝ) (hps : 2 * nd.resolution < ps * Real.sqrt 12 * 2) :
    ∃ f, fitAxis env nd ps = .ok f := by
  have hb : nd.refBins ≠ 0 := by
    have := (hall 0 (by omega)).1
    rw [hreg.rows _ (List.getElem_mem _)] at this
    omega
  obtain ⟨l, hl⟩ := line_exists env hs nd hreg hn hb
  obtain ⟨-, hd, ⟨b⟩⟩ := line_ok hs hreg hl
  have hres := hreg.res
  have hmem : ∀ i (h : i < nd.data.length), |l.slope * i + l.offset - j| < 2 → dutCentre nd i ∈ nd.inliers l ps := by
    intro i h hi
    refine (mem_inliers hreg hd l ps _).mpr ⟨i, h, by rw [peak_eq (hall i h)]; exact hj, rfl, ?_⟩
    rw [peak_eq (hall i h), href, add_zero, abs_mul, abs_of_pos hres]
    nlinarith
  -- some bin supports the line
  obtain ⟨i, hi⟩ : (supportSet nd b.theta b.rho).Nonempty := by
    obtain ⟨t, -, -, hbest⟩ := best_diag hreg b (s := 1) (.inl rfl)
    have h0 : 0 ∈ supportSet nd t (⌈((0 : Nat) : ℝ) * Real.cos t + j * Real.sin t - 1 / 2⌉ : ℤ) := by
      refine ⟨by omega, j, hall 0 (by omega), ?_⟩
      have c1 := Int.le_ceil (((0 : Nat) : ℝ) * Real.cos t + j * Real.sin t - 1 / 2)
      have c2 := Int.ceil_lt_add_one (((0 : Nat) : ℝ) * Real.cos t + j * Real.sin t - 1 / 2)
      constructor <;> linarith
    have := hbest ⌈((0 : Nat) : ℝ) * Real.cos t + j * Real.sin t - 1 / 2⌉
    refine Set.nonempty_of_ncard_ne_zero ?_
    have hpos := (Set.ncard_pos (supportSet_finite nd t _)).mpr ⟨0, h0⟩
    omega
  obtain ⟨hi', j', hj', h1, h2⟩ := hi
  have : j' = j := (peak_eq hj').symm.trans (peak_eq (hall i hi'))
  subst this
  have hnear := near b h1 h2
  have hslope : |l.slope| ≤ 11 / 10 := by
    rcases b.proper with h | h <;> rw [abs_le] at h ⊢ <;> constructor <;> linarith [h.1, h.2]
  rw [abs_le] at hnear hslope
  -- its neighbour
  obtain ⟨k, hk, hki⟩ : ∃ k, k < nd.data.length ∧ (k = i + 1 ∨ i = k + 1) := by
    by_cases h : i + 1 < nd.data.length
    · exact ⟨i + 1, h, .inl rfl⟩
    · exact ⟨i - 1, by omega, .inr (by omega)⟩
  have hknear : |l.slope * k + l.offset - j'| < 2 := by
    rw [abs_lt]
    rcases hki with rfl | rfl
    · push_cast
      constructor <;> nlinarith [hnear.1, hnear.2, hslope.1, hslope.2]
    · push_cast at hnear
      constructor <;> nlinarith [hnear.1, hnear.2, hslope.1, hslope.2]
  obtain ⟨f, hf, -, -⟩ := fitAxis_exists hl hd hdens
    (hmem i hi' (by rw [abs_lt]; constructor <;> linarith [hnear.1, hnear.2])) (hmem k hk hknear) (by
      unfold dutCentre
      intro he
      have : (i : ℝ) = k := by
        have : ((i : ℝ) + 1 / 2) * nd.resolution = (k + 1 / 2) * nd.resolution := by linarith
        have := mul_right_cancel₀ hres.ne' this
        linarith
      have : i = k := by exact_mod_cast this
      omega)
  exact ⟨f, hf⟩

/-! ### C105: the position -/

/-- Result of the function for one DUT. -/
theorem prealign_fits {env : Env} {file : File} {tel tel' : List PDut} {same : Bool} {sel : Option (List Nat)} {ref i : Nat}
    (h : prealign env file tel same sel ref = .ok tel') (hi : Aligned tel.length ref sel i) :
    ∃ d nx ny fx fy mx my alpha beta gamma, tel[i]? = some d ∧ file i true = some nx ∧ file i false = some ny ∧
      fitAxis env nx d.pixels.columnSize = .ok fx ∧ fitAxis env ny d.pixels.rowSize = .ok fy ∧
      minMax ((inside d fx fy).map fun p => localOf d.pixels p 0) = some mx ∧
      minMax ((inside d fx fy).map fun p => localOf d.pixels p 1) = some my ∧
      eulerAngles (newRotation d.align fx.slope fy.slope) = .angles alpha beta gamma ∧
      tel'[i]? = some ⟨d.pixels, ⟨fx.offsetCenter, fy.offsetCenter, d.align.z, alpha, beta, gamma⟩, some (newLimit d.xLimit mx),
        some (newLimit d.yLimit my)⟩ := by
  obtain ⟨-, -, h1, -⟩ := (prealign_ok_iff _ _ _ _ _ _ _).mp h
  obtain ⟨d, d', hd, hp, hd'⟩ := h1 i hi
  obtain ⟨-, nx, ny, fx, fy, hx, hy, hfx, hfy, hset⟩ := (prealignDut_ok_iff _ _ _ _ _ _).mp hp
  obtain ⟨mx, my, al, be, ga, h2, h3, h4, rfl⟩ := (setDut_ok_iff _ _ _ _).mp hset
  exact ⟨d, nx, ny, fx, fy, mx, my, al, be, ga, hd, hx, hy, hfx, hfy, h2, h3, h4, hd'⟩

/-- C105, one axis. -/
theorem C105_axis_partial (env : Env) (hs : Sorts env) (nd : Node) (hreg : Regular nd) (ps : ℝ) (f : Fit) (h : fitAxis env nd ps = .ok f)
    (hn : 5 ≤ nd.data.length) (s pos tol : ℝ) (hsg : s = 1 ∨ s = -1) (hc : Correlated nd s pos tol) (ht : tol ≤ nd.resolution / 2) :
    |f.offsetCenter - pos| ≤ 4 / 5 * nd.resolution + tol ∧ |f.slope - s| ≤ 1 / 10 := by
  obtain ⟨l, hl, hsl, hoff, -⟩ := fitAxis_ok h
  obtain ⟨hb, hd, ⟨b⟩⟩ := line_ok hs hreg hl
  rw [hsl, hoff]
  exact ⟨center_tol hreg hb hn b hsg hc ht, slope_tol hreg hb hn b hsg hc ht⟩

/-- C105, part: the translation of an aligned DUT is where its centre is seen by the reference, within four fifths of a bin and the tolerance
of the correlation. Missing: the pre-alignment fails if the range of the reference is not centred at zero, see `C105_reference`. -/
theorem C105_position_partial (env : Env) (hs : Sorts env) (file : File) (tel tel' : List PDut) (same : Bool) (sel : Option (List Nat))
    (ref i : Nat) (h : prealign env file tel same sel ref = .ok tel') (hi : Aligned tel.length ref sel i) (nx ny : Node)
    (hx : file i true = some nx) (hy : file i false = some ny) (hrx : Regular nx) (hry : Regular ny) (hnx : 5 ≤ nx.data.length)
    (hny : 5 ≤ ny.data.length) (sx posx tolx sy posy toly : ℝ) (hsx : sx = 1 ∨ sx = -1) (hsy : sy = 1 ∨ sy = -1)
    (hcx : Correlated nx sx posx tolx) (hcy : Correlated ny sy posy toly) (htx : tolx ≤ nx.resolution / 2)
    (hty : toly ≤ ny.resolution / 2) :
    ∃ d', tel'[i]? = some d' ∧ |d'.align.x - posx| ≤ 4 / 5 * nx.resolution + tolx ∧ |d'.align.y - posy| ≤ 4 / 5 * ny.resolution + toly := by
  obtain ⟨d, nx', ny', fx, fy, mx, my, al, be, ga, -, hx', hy', hfx, hfy, -, -, -, hd'⟩ := prealign_fits h hi
  rw [hx] at hx'
  rw [hy] at hy'
  obtain rfl := Option.some.inj hx'
  obtain rfl := Option.some.inj hy'
  exact ⟨_, hd', (C105_axis_partial env hs nx hrx _ fx hfx hnx sx posx tolx hsx hcx htx).1,
    (C105_axis_partial env hs ny hry _ fy hfy hny sy posy toly hsy hcy hty).1⟩

/-- C105: if every bin of the DUT is exactly correlated, the position is correct within three quarters of a bin, for any number of bins. -/
theorem C105_exact_partial (env : Env) (hs : Sorts env) (file : File) (tel tel' : List PDut) (same : Bool) (sel : Option (List Nat))
    (ref i : Nat) (h : prealign env file tel same sel ref = .ok tel') (hi : Aligned tel.length ref sel i) (nx ny : Node)
    (hx : file i true = some nx) (hy : file i false = some ny) (hrx : Regular nx) (hry : Regular ny) (sx posx sy posy : ℝ)
    (hsx : sx = 1 ∨ sx = -1) (hsy : sy = 1 ∨ sy = -1) (hcx : Correlated nx sx posx 0) (hcy : Correlated ny sy posy 0) :
    ∃ d', tel'[i]? = some d' ∧ |d'.align.x - posx| ≤ 3 / 4 * nx.resolution ∧ |d'.align.y - posy| ≤ 3 / 4 * ny.resolution := by
  obtain ⟨d, nx', ny', fx, fy, mx, my, al, be, ga, -, hx', hy', hfx, hfy, -, -, -, hd'⟩ := prealign_fits h hi
  rw [hx] at hx'
  rw [hy] at hy'
  obtain rfl := Option.some.inj hx'
  obtain rfl := Option.some.inj hy'
  obtain ⟨lx, hlx, -, hox, -⟩ := fitAxis_ok hfx
  obtain ⟨ly, hly, -, hoy, -⟩ := fitAxis_ok hfy
  obtain ⟨hbx, hdx, ⟨bx⟩⟩ := line_ok hs hrx hlx
  obtain ⟨hby, hdy, ⟨b_y⟩⟩ := line_ok hs hry hly
  refine ⟨_, hd', ?_, ?_⟩
  · dsimp only
    rw [hox]
    exact center_exact hrx hbx hdx bx hsx hcx
  · dsimp only
    rw [hoy]
    exact center_exact hry hby hdy b_y hsy hcy

/-- C105: the range of the reference has to be centred at zero. If the centre is off by more than about seven pixels, the pre-alignment of a
perfectly correlated DUT fails. -/
theorem C105_reference (env : Env) (hs : Sorts env) (file : File) (tel tel' : List PDut) (same : Bool) (sel : Option (List Nat))
    (ref i : Nat) (hi : Aligned tel.length ref sel i) (d : PDut) (hd : tel[i]? = some d) (nd : Node) (hreg : Regular nd) (s pos : ℝ)
    (hsg : s = 1 ∨ s = -1) (hc : Correlated nd s pos 0)
    (hn : file i true = some nd ∧ d.pixels.columnSize * Real.sqrt 12 * 2 + 3 / 4 * nd.resolution ≤ |refMiddle nd| ∨
      file i false = some nd ∧ d.pixels.rowSize * Real.sqrt 12 * 2 + 3 / 4 * nd.resolution ≤ |refMiddle nd|) :
    prealign env file tel same sel ref ≠ .ok tel' := by
  have axis : ∀ ps f, ps * Real.sqrt 12 * 2 + 3 / 4 * nd.resolution ≤ |refMiddle nd| → fitAxis env nd ps ≠ .ok f := by
    intro ps f hps h
    obtain ⟨l, hl, -, -, hlim⟩ := fitAxis_ok h
    obtain ⟨hb, hdd, ⟨b⟩⟩ := line_ok hs hreg hl
    have hS := full_support hreg hb b hsg hc
    have hin : nd.inliers l ps = [] := by
      rw [List.eq_nil_iff_forall_not_mem]
      intro x hx
      obtain ⟨k, hk, -, -, hlt⟩ := (mem_inliers hreg hdd l ps x).mp hx
      have hmem : k ∈ supportSet nd b.theta b.rho := by rw [hS]; exact hk
      obtain ⟨_, j, hj, h1, h2⟩ := hmem
      have hnear := near b h1 h2
      rw [peak_eq hj] at hlt
      have hm : |nd.resolution * (l.slope * k + l.offset - j)| ≤ 3 / 4 * nd.resolution := by
        rw [abs_mul, abs_of_pos hreg.res, mul_comm]
        exact mul_le_mul_of_nonneg_right hnear hreg.res.le
      have h3 := abs_sub_abs_le_abs_sub (refMiddle nd) (-(nd.resolution * (l.slope * k + l.offset - j)))
      rw [abs_neg, sub_neg_eq_add, add_comm (refMiddle nd)] at h3
      linarith
    rw [inliers_few hin] at hlim
    exact absurd hlim (by simp)
  intro h
  obtain ⟨d0, nx, ny, fx, fy, mx, my, al, be, ga, hd0, hx, hy, hfx, hfy, -⟩ := prealign_fits h hi
  rw [hd] at hd0
  obtain rfl := Option.some.inj hd0
  rcases hn with ⟨h1, h2⟩ | ⟨h1, h2⟩
  · rw [h1] at hx
    obtain rfl := Option.some.inj hx
    exact axis _ _ h2 hfx
  · rw [h1] at hy
    obtain rfl := Option.some.inj hy
    exact axis _ _ h2 hfy

/-- C105: with the reference at zero, the fit of an exactly correlated DUT with three bins succeeds. -/
theorem C105_succeeds (env : Env) (hs : Sorts env) (hdens : ∀ xs x, 0 < env.density xs x) (nd : Node) (hreg : Regular nd)
    (hn : 3 ≤ nd.data.length) (hb : nd.refBins ≠ 0) (href : refMiddle nd = 0) (s pos : ℝ) (hsg : s = 1 ∨ s = -1)
    (hc : Correlated nd s pos 0) (ps : ℝ) (hps : 3 / 4 * nd.resolution < ps * Real.sqrt 12 * 2) :
    ∃ f, fitAxis env nd ps = .ok f ∧ |f.offsetCenter - pos| ≤ 3 / 4 * nd.resolution ∧ |f.slope - s| ≤ 1 / 10 := by
  obtain ⟨l, hl⟩ := line_exists env hs nd hreg (by omega) hb
  obtain ⟨-, hd, ⟨b⟩⟩ := line_ok hs hreg hl
  have hres := hreg.res
  have hS := full_support hreg hb b hsg hc
  have hrow : ∀ k (h : k < nd.data.length), nd.data[k] ≠ [] := by
    intro k h h0
    have := hreg.rows _ (List.getElem_mem h)
    rw [h0] at this
    exact hb this.symm
  have hmem : ∀ k (h : k < nd.data.length), argmax nd.data[k] ≠ 0 → dutCentre nd k ∈ nd.inliers l ps := by
    intro k h hk
    refine (mem_inliers hreg hd l ps _).mpr ⟨k, h, hk, rfl, ?_⟩
    have hm : k ∈ supportSet nd b.theta b.rho := by rw [hS]; exact h
    obtain ⟨_, j, hj, h1, h2⟩ := hm
    have hnear := near b h1 h2
    rw [peak_eq hj, href, add_zero, abs_mul, abs_of_pos hres]
    nlinarith
  -- different bins of the DUT have different peaks
  have hdiff : ∀ k k' (h : k < nd.data.length) (h' : k' < nd.data.length), k ≠ k' → argmax nd.data[k] ≠ argmax nd.data[k'] := by
    intro k k' h h' hne he
    have p1 := hc k h _ (argmax_peak _ (hrow k h))
    have p2 := hc k' h' _ (argmax_peak _ (hrow k' h'))
    rw [he] at p1
    have e1 := abs_nonpos_iff.mp p1
    have e2 := abs_nonpos_iff.mp p2
    have e3 : s * (dutCentre nd k - dutCentre nd k') = 0 := by linarith
    have hs0 : s ≠ 0 := by rcases hsg with rfl | rfl <;> norm_num
    have e4 : dutCentre nd k = dutCentre nd k' := by
      rcases mul_eq_zero.mp e3 with h | h
      · exact absurd h hs0
      · linarith
    unfold dutCentre at e4
    have e5 : ((k : ℝ) + 1 / 2) * nd.resolution = (k' + 1 / 2) * nd.resolution := by linarith
    have e6 := mul_right_cancel₀ hres.ne' e5
    have : (k : ℝ) = k' := by linarith
    exact hne (by exact_mod_cast this)
  have hcne : ∀ k k' : Nat, k ≠ k' → dutCentre nd k ≠ dutCentre nd k' := by
    intro k k' hne e4
    unfold dutCentre at e4
    have e5 : ((k : ℝ) + 1 / 2) * nd.resolution = (k' + 1 / 2) * nd.resolution := by linarith
    have e6 := mul_right_cancel₀ hres.ne' e5
    have : (k : ℝ) = k' := by linarith
    exact hne (by exact_mod_cast this)
  obtain ⟨k, k', hk, hk', hne, h1, h2⟩ : ∃ k k', ∃ (hk : k < nd.data.length) (hk' : k' < nd.data.length), k ≠ k' ∧
      argmax nd.data[k] ≠ 0 ∧ argmax nd.data[k'] ≠ 0 := by
    have d01 := hdiff 0 1 (by omega) (by omega) (by omega)
    have d02 := hdiff 0 2 (by omega) (by omega) (by omega)
    have d12 := hdiff 1 2 (by omega) (by omega) (by omega)
    by_cases h0 : argmax nd.data[0] = 0
    · exact ⟨1, 2, by omega, by omega, by omega, fun h => d01 (by rw [h0, h]), fun h => d02 (by rw [h0, h])⟩
    · by_cases h1 : argmax nd.data[1] = 0
      · exact ⟨0, 2, by omega, by omega, by omega, h0, fun h => d12 (by rw [h1, h])⟩
      · exact ⟨0, 1, by omega, by omega, by omega, h0, h1⟩
  obtain ⟨f, hf, hsl, hoff⟩ := fitAxis_exists hl hd hdens (hmem k hk h1) (hmem k' hk' h2) (hcne _ _ hne)
  refine ⟨f, hf, ?_, ?_⟩
  · rw [hoff]; exact center_exact hreg hb hd b hsg hc
  · rw [hsl]; exact slope_exact hreg hb (by omega) b hsg hc

/-! ### C106: the limits -/

/-- C106: the new limits of a DUT without limits are the smallest and largest coordinates of pixels of the DUT. -/
theorem C106_new_limit (env : Env) (file : File) (tel tel' : List PDut) (same : Bool) (sel : Option (List Nat)) (ref i : Nat)
    (h : prealign env file tel same sel ref = .ok tel') (hi : Aligned tel.length ref sel i) (d : PDut) (hd : tel[i]? = some d)
    (hx : d.xLimit = none) (hy : d.yLimit = none) :
    ∃ d' ax bx ay b_y, tel'[i]? = some d' ∧ d'.xLimit = some (ax, bx) ∧ d'.yLimit = some (ay, b_y) ∧ ax ≤ bx ∧ ay ≤ b_y ∧
      (∀ e ∈ [ax, bx], ∃ c, 1 ≤ c ∧ c ≤ d.pixels.nColumns ∧ e = (pixelCentre d.pixels c 1).1) ∧
      ∀ e ∈ [ay, b_y], ∃ r, 1 ≤ r ∧ r ≤ d.pixels.nRows ∧ e = (pixelCentre d.pixels 1 r).2 := by
  obtain ⟨d0, nx, ny, fx, fy, mx, my, al, be, ga, hd0, -, -, -, -, hmx, hmy, -, hd'⟩ := prealign_fits h hi
  rw [hd] at hd0
  obtain rfl := Option.some.inj hd0
  obtain ⟨x1, x2, x3⟩ := minMax_some hmx
  obtain ⟨y1, y2, y3⟩ := minMax_some hmy
  have ox := (x3 _ x2).1
  have oy := (y3 _ y2).1
  have px : ∀ e ∈ (inside d fx fy).map (fun p => localOf d.pixels p 0), ∃ c, 1 ≤ c ∧ c ≤ d.pixels.nColumns ∧ e = (pixelCentre d.pixels c 1).1 := by
    intro e he
    obtain ⟨p, hp, rfl⟩ := List.mem_map.mp he
    obtain ⟨c, r, h1, h2, h3, h4, rfl⟩ := (allPixels_mem _ _).mp (List.mem_filter.mp hp).1
    exact ⟨c, h1, h2, rfl⟩
  have py : ∀ e ∈ (inside d fx fy).map (fun p => localOf d.pixels p 1), ∃ r, 1 ≤ r ∧ r ≤ d.pixels.nRows ∧ e = (pixelCentre d.pixels 1 r).2 := by
    intro e he
    obtain ⟨p, hp, rfl⟩ := List.mem_map.mp he
    obtain ⟨c, r, h1, h2, h3, h4, rfl⟩ := (allPixels_mem _ _).mp (List.mem_filter.mp hp).1
    exact ⟨r, h3, h4, rfl⟩
  refine ⟨_, mx.1, mx.2, my.1, my.2, hd', ?_, ?_, ox, oy, ?_, ?_⟩
  · dsimp only
    rw [hx]
    simp only [newLimit, setLimit, min_eq_left ox, max_eq_right ox]
  · dsimp only
    rw [hy]
    simp only [newLimit, setLimit, min_eq_left oy, max_eq_right oy]
  · intro e he
    simp only [List.mem_cons, List.not_mem_nil, or_false] at he
    rcases he with rfl | rfl
    · exact px _ x1
    · exact px _ x2
  · intro e he
    simp only [List.mem_cons, List.not_mem_nil, or_false] at he
    rcases he with rfl | rfl
    · exact py _ y1
    · exact py _ y2

/-- C106: the limits are those of the pixels in the region in which both axes are correlated. -/
theorem C106_region (env : Env) (file : File) (tel tel' : List PDut) (same : Bool) (sel : Option (List Nat)) (ref i : Nat)
    (h : prealign env file tel same sel ref = .ok tel') (hi : Aligned tel.length ref sel i) (d : PDut) (hd : tel[i]? = some d)
    (hx : d.xLimit = none) (hy : d.yLimit = none) :
    ∃ d' nx ny fx fy lx ly, tel'[i]? = some d' ∧ file i true = some nx ∧ file i false = some ny ∧
      fitAxis env nx d.pixels.columnSize = .ok fx ∧ fitAxis env ny d.pixels.rowSize = .ok fy ∧ d'.xLimit = some lx ∧ d'.yLimit = some ly ∧
      ∀ c r : Nat, 1 ≤ c → c ≤ d.pixels.nColumns → 1 ≤ r → r ≤ d.pixels.nRows →
        ∀ p : Vec3, p = (rotationMatrix d.align.alpha d.align.beta d.align.gamma).mulVec
            ![(pixelCentre d.pixels c r).1, (pixelCentre d.pixels c r).2, 0] + ![d.align.x, d.align.y, d.align.z] →
          fx.limit.1 ≤ p 0 → p 0 ≤ fx.limit.2 → fy.limit.1 ≤ p 1 → p 1 ≤ fy.limit.2 →
          lx.1 ≤ (pixelCentre d.pixels c r).1 ∧ (pixelCentre d.pixels c r).1 ≤ lx.2 ∧
          ly.1 ≤ (pixelCentre d.pixels c r).2 ∧ (pixelCentre d.pixels c r).2 ≤ ly.2 := by
  obtain ⟨d0, nx, ny, fx, fy, mx, my, al, be, ga, hd0, hnx, hny, hfx, hfy, hmx, hmy, -, hd'⟩ := prealign_fits h hi
  rw [hd] at hd0
  obtain rfl := Option.some.inj hd0
  obtain ⟨x1, x2, x3⟩ := minMax_some hmx
  obtain ⟨y1, y2, y3⟩ := minMax_some hmy
  have ox := (x3 _ x2).1
  have oy := (y3 _ y2).1
  refine ⟨_, nx, ny, fx, fy, mx, my, hd', hnx, hny, hfx, hfy, ?_, ?_, ?_⟩
  · dsimp only
    rw [hx]
    simp only [newLimit, setLimit, min_eq_left ox, max_eq_right ox]
  · dsimp only
    rw [hy]
    simp only [newLimit, setLimit, min_eq_left oy, max_eq_right oy]
  · rintro c r h1 h2 h3 h4 p rfl l1 l2 l3 l4
    have hin : ((c : ℝ), (r : ℝ)) ∈ inside d fx fy := by
      refine List.mem_filter.mpr ⟨(allPixels_mem _ _).mpr ⟨c, r, h1, h2, h3, h4, rfl⟩, ?_⟩
      unfold inRange
      simp only [Bool.and_eq_true, decide_eq_true_eq]
      exact ⟨⟨l1, l2⟩, l3, l4⟩
    have hx' := x3 _ (List.mem_map.mpr ⟨_, hin, rfl⟩)
    have hy' := y3 _ (List.mem_map.mpr ⟨_, hin, rfl⟩)
    exact ⟨hx'.1, hx'.2, hy'.1, hy'.2⟩

/-- The same DUT with other limits. -/
def withLimits (d : PDut) (x y : Option (ℝ × ℝ)) : PDut := { d with xLimit := x, yLimit := y }

/-- Two runs that differ only in the old limits of the DUT. -/
theorem two_runs {env : Env} {file : File} {tel tel₁ tel₂ : List PDut} {same : Bool} {sel : Option (List Nat)} {ref i : Nat} {d : PDut}
    {x y : Option (ℝ × ℝ)} (hi : Aligned tel.length ref sel i) (hd : tel[i]? = some d)
    (h1 : prealign env file (tel.set i (withLimits d none none)) same sel ref = .ok tel₁)
    (h2 : prealign env file (tel.set i (withLimits d x y)) same sel ref = .ok tel₂) :
    ∃ mx my d₁ d₂, mx.1 ≤ mx.2 ∧ my.1 ≤ my.2 ∧ tel₁[i]? = some d₁ ∧ tel₂[i]? = some d₂ ∧ d₁.xLimit = some mx ∧ d₁.yLimit = some my ∧
      d₂.xLimit = some (newLimit x mx) ∧ d₂.yLimit = some (newLimit y my) := by
  have hlt : i < tel.length := (List.getElem?_eq_some_iff.mp hd).1
  have hi' : ∀ d', Aligned (tel.set i d').length ref sel i := fun d' => by rw [List.length_set]; exact hi
  obtain ⟨e1, nx, ny, fx, fy, mx, my, al, be, ga, he1, hx1, hy1, hfx1, hfy1, hmx1, hmy1, -, hd1⟩ := prealign_fits h1 (hi' _)
  obtain ⟨e2, nx2, ny2, fx2, fy2, mx2, my2, al2, be2, ga2, he2, hx2, hy2, hfx2, hfy2, hmx2, hmy2, -, hd2⟩ := prealign_fits h2 (hi' _)
  rw [List.getElem?_set_self hlt] at he1 he2
  obtain rfl := Option.some.inj he1
  obtain rfl := Option.some.inj he2
  rw [hx1] at hx2
  rw [hy1] at hy2
  obtain rfl := Option.some.inj hx2
  obtain rfl := Option.some.inj hy2
  have efx : fx = fx2 := Except.ok.inj (hfx1.symm.trans hfx2)
  have efy : fy = fy2 := Except.ok.inj (hfy1.symm.trans hfy2)
  subst efx efy
  have emx : mx = mx2 := Option.some.inj (hmx1.symm.trans hmx2)
  have emy : my = my2 := Option.some.inj (hmy1.symm.trans hmy2)
  subst emx emy
  obtain ⟨x1, x2, x3⟩ := minMax_some hmx1
  obtain ⟨y1, y2, y3⟩ := minMax_some hmy1
  have ox := (x3 _ x2).1
  have oy := (y3 _ y2).1
  refine ⟨mx, my, _, _, ox, oy, hd1, hd2, ?_, ?_, rfl, rfl⟩
  · simp only [withLimits, newLimit, setLimit, min_eq_left ox, max_eq_right ox]
  · simp only [withLimits, newLimit, setLimit, min_eq_left oy, max_eq_right oy]

/-- C106, part: an old limit is narrowed: the result is the intersection of the old limit and of the limit for a DUT without limits. Missing: the
two limits may be disjoint, see `C106_disjoint`. -/
theorem C106_intersection_partial (env : Env) (file : File) (tel tel₁ tel₂ : List PDut) (same : Bool) (sel : Option (List Nat)) (ref i : Nat)
    (d : PDut) (ox oy : ℝ × ℝ) (hi : Aligned tel.length ref sel i) (hd : tel[i]? = some d)
    (h1 : prealign env file (tel.set i (withLimits d none none)) same sel ref = .ok tel₁)
    (h2 : prealign env file (tel.set i (withLimits d (some ox) (some oy))) same sel ref = .ok tel₂) (d₁ d₂ : PDut) (hd1 : tel₁[i]? = some d₁)
    (hd2 : tel₂[i]? = some d₂) (lx ly : ℝ × ℝ) (hlx : d₁.xLimit = some lx) (hly : d₁.yLimit = some ly)
    (hx : (Set.Icc lx.1 lx.2 ∩ Set.Icc ox.1 ox.2).Nonempty) (hy : (Set.Icc ly.1 ly.2 ∩ Set.Icc oy.1 oy.2).Nonempty) :
    ∃ nx ny, d₂.xLimit = some nx ∧ d₂.yLimit = some ny ∧ Set.Icc nx.1 nx.2 = Set.Icc lx.1 lx.2 ∩ Set.Icc ox.1 ox.2 ∧
      Set.Icc ny.1 ny.2 = Set.Icc ly.1 ly.2 ∩ Set.Icc oy.1 oy.2 := by
  obtain ⟨mx, my, e1, e2, -, -, he1, he2, hx1, hy1, hx2, hy2⟩ := two_runs hi hd h1 h2
  obtain rfl := Option.some.inj (hd1.symm.trans he1)
  obtain rfl := Option.some.inj (hd2.symm.trans he2)
  obtain rfl := Option.some.inj (hlx.symm.trans hx1)
  obtain rfl := Option.some.inj (hly.symm.trans hy1)
  have aux : ∀ l o : ℝ × ℝ, (Set.Icc l.1 l.2 ∩ Set.Icc o.1 o.2).Nonempty →
      Set.Icc (newLimit (some o) l).1 (newLimit (some o) l).2 = Set.Icc l.1 l.2 ∩ Set.Icc o.1 o.2 := by
    intro l o h
    have hle : max l.1 o.1 ≤ min l.2 o.2 := by
      rw [Set.Icc_inter_Icc, Set.nonempty_Icc] at h
      exact h
    rw [Set.Icc_inter_Icc]
    simp only [newLimit, setLimit, min_eq_left hle, max_eq_right hle]
  exact ⟨_, _, hx2, hy2, aux _ _ hx, aux _ _ hy⟩

/-- C106: if the old limit and the new one have no common point, the result is the gap between both: no point in it (apart from the ends) is in
either of them. -/
theorem C106_disjoint (env : Env) (file : File) (tel tel₁ tel₂ : List PDut) (same : Bool) (sel : Option (List Nat)) (ref i : Nat)
    (d : PDut) (o : ℝ × ℝ) (hi : Aligned tel.length ref sel i) (hd : tel[i]? = some d)
    (h1 : prealign env file (tel.set i (withLimits d none none)) same sel ref = .ok tel₁)
    (h2 : prealign env file (tel.set i (withLimits d (some o) none)) same sel ref = .ok tel₂) (d₁ d₂ : PDut) (hd1 : tel₁[i]? = some d₁)
    (hd2 : tel₂[i]? = some d₂) (l : ℝ × ℝ) (hl : d₁.xLimit = some l) (ho : o.1 ≤ o.2) (hdis : l.2 < o.1 ∨ o.2 < l.1) :
    ∃ n, d₂.xLimit = some n ∧ n.1 < n.2 ∧ ∀ x ∈ Set.Ioo n.1 n.2, x ∉ Set.Icc l.1 l.2 ∧ x ∉ Set.Icc o.1 o.2 := by
  obtain ⟨mx, my, e1, e2, hm, -, he1, he2, hx1, -, hx2, -⟩ := two_runs hi hd h1 h2
  obtain rfl := Option.some.inj (hd1.symm.trans he1)
  obtain rfl := Option.some.inj (hd2.symm.trans he2)
  obtain rfl := Option.some.inj (hl.symm.trans hx1)
  refine ⟨_, hx2, ?_⟩
  rcases hdis with h | h
  · have e1 : max l.1 o.1 = o.1 := max_eq_right (by linarith)
    have e2 : min l.2 o.2 = l.2 := min_eq_left (by linarith)
    simp only [newLimit, setLimit, e1, e2, min_eq_right h.le, max_eq_left h.le]
    exact ⟨h, fun x hx => ⟨fun hx' => absurd hx.1 (not_lt.mpr hx'.2), fun hx' => absurd hx.2 (not_lt.mpr hx'.1)⟩⟩
  · have e1 : max l.1 o.1 = l.1 := max_eq_left (by linarith)
    have e2 : min l.2 o.2 = o.2 := min_eq_right (by linarith)
    simp only [newLimit, setLimit, e1, e2, min_eq_right h.le, max_eq_left h.le]
    exact ⟨h, fun x hx => ⟨fun hx' => absurd hx.2 (not_lt.mpr hx'.1), fun hx' => absurd hx.1 (not_lt.mpr hx'.2)⟩⟩

/-! ### C107: the rotation -/

theorem rotY_pi (R : Mat3) (j k : Fin 3) : (rotY Real.pi * R) j k = (![-1, 1, -1] : Fin 3 → ℝ) j * R j k := by
  fin_cases j <;> simp [rotY, Matrix.mul_apply, Fin.sum_univ_succ]

theorem rotX_pi (R : Mat3) (j k : Fin 3) : (rotX Real.pi * R) j k = (![1, -1, -1] : Fin 3 → ℝ) j * R j k := by
  fin_cases j <;> simp [rotX, Matrix.mul_apply, Fin.sum_univ_succ]

theorem newRotation_get (a : Alignment) (fx fy sx sy : ℝ) (hx : sx = 1 ∨ sx = -1) (hy : sy = 1 ∨ sy = -1) (h1 : |fx - sx| ≤ 1 / 10)
    (h2 : |fy - sy| ≤ 1 / 10) (j k : Fin 3) :
    newRotation a fx fy j k = (![sx, sy, sx * sy] : Fin 3 → ℝ) j * rotationMatrix a.alpha a.beta a.gamma j k := by
  rw [abs_le] at h1 h2
  unfold newRotation
  rcases hx with rfl | rfl <;> rcases hy with rfl | rfl
  · rw [if_neg (by linarith), if_neg (by linarith)]
    fin_cases j <;> simp
  · rw [if_pos (by linarith), if_neg (by linarith), rotX_pi]
    fin_cases j <;> simp
  · rw [if_neg (by linarith), if_pos (by linarith), rotY_pi]
    fin_cases j <;> simp
  · rw [if_pos (by linarith), if_pos (by linarith), rotX_pi, rotY_pi]
    fin_cases j <;> simp

theorem rotX_proper (t : ℝ) : BTA.Spec.Proper (rotX t) := by
  have h := C31_proper t 0 0
  have e : rotationMatrix t 0 0 = rotX t := by
    rw [rotationMatrix_eq]
    ext i j
    fin_cases i <;> fin_cases j <;> simp [rotX]
  rwa [e] at h

theorem rotY_proper (t : ℝ) : BTA.Spec.Proper (rotY t) := by
  have h := C31_proper 0 t 0
  have e : rotationMatrix 0 t 0 = rotY t := by
    rw [rotationMatrix_eq]
    ext i j
    fin_cases i <;> fin_cases j <;> simp [rotY]
  rwa [e] at h

theorem Proper.mul {A B : Mat3} (ha : BTA.Spec.Proper A) (hb : BTA.Spec.Proper B) : BTA.Spec.Proper (A * B) := by
  refine ⟨?_, by rw [Matrix.det_mul, ha.det, hb.det, one_mul]⟩
  rw [Matrix.transpose_mul, Matrix.mul_assoc, ← Matrix.mul_assoc A.transpose, ha.orth, Matrix.one_mul, hb.orth]

theorem newRotation_proper (a : Alignment) (fx fy : ℝ) : BTA.Spec.Proper (newRotation a fx fy) := by
  unfold newRotation
  dsimp only
  have h0 := C31_proper a.alpha a.beta a.gamma
  split_ifs
  · exact Proper.mul (rotX_proper _) (Proper.mul (rotY_proper _) h0)
  · exact Proper.mul (rotX_proper _) h0
  · exact Proper.mul (rotY_proper _) h0
  · exact h0

theorem newRotation_20 (a : Alignment) (fx fy : ℝ) : newRotation a fx fy 2 0 = rotationMatrix a.alpha a.beta a.gamma 2 0 ∨
    newRotation a fx fy 2 0 = -rotationMatrix a.alpha a.beta a.gamma 2 0 := by
  unfold newRotation
  split_ifs
  · rw [rotX_pi, rotY_pi]; simp
  · rw [rotX_pi]; simp
  · rw [rotY_pi]; simp
  · exact .inl rfl

/-- C107: after the pre-alignment, the orientation of the DUT is the old one, turned by 180 degrees around the axes for which the correlation is
negative: the x axis is inverted for a negative correlation in x, the y axis for a negative correlation in y, and the DUT stays right handed. -/
theorem C107_turned (env : Env) (hs : Sorts env) (file : File) (tel tel' : List PDut) (same : Bool) (sel : Option (List Nat))
    (ref i : Nat) (h : prealign env file tel same sel ref = .ok tel') (hi : Aligned tel.length ref sel i) (nx ny : Node)
    (hx : file i true = some nx) (hy : file i false = some ny) (hrx : Regular nx) (hry : Regular ny) (hnx : 5 ≤ nx.data.length)
    (hny : 5 ≤ ny.data.length) (sx posx tolx sy posy toly : ℝ) (hsx : sx = 1 ∨ sx = -1) (hsy : sy = 1 ∨ sy = -1)
    (hcx : Correlated nx sx posx tolx) (hcy : Correlated ny sy posy toly) (htx : tolx ≤ nx.resolution / 2)
    (hty : toly ≤ ny.resolution / 2) :
    ∃ d d', tel[i]? = some d ∧ tel'[i]? = some d' ∧ ∀ j k, |rotationMatrix d'.align.alpha d'.align.beta d'.align.gamma j k -
      (![sx, sy, sx * sy] : Fin 3 → ℝ) j * rotationMatrix d.align.alpha d.align.beta d.align.gamma j k| ≤ 5 * eps := by
  obtain ⟨d, nx', ny', fx, fy, mx, my, al, be, ga, hd, hx', hy', hfx, hfy, -, -, heul, hd'⟩ := prealign_fits h hi
  rw [hx] at hx'
  rw [hy] at hy'
  obtain rfl := Option.some.inj hx'
  obtain rfl := Option.some.inj hy'
  have slx := (C105_axis_partial env hs nx hrx _ fx hfx hnx sx posx tolx hsx hcx htx).2
  have sly := (C105_axis_partial env hs ny hry _ fy hfy hny sy posy toly hsy hcy hty).2
  have hp := newRotation_proper d.align fx.slope fy.slope
  have n1 : newRotation d.align fx.slope fy.slope 2 0 ≠ 1 := by
    intro h1
    rw [C32_gimbal_lock _ hp (.inl h1)] at heul
    exact absurd heul (by simp)
  have n2 : newRotation d.align fx.slope fy.slope 2 0 ≠ -1 := by
    intro h1
    rw [C32_gimbal_lock _ hp (.inr h1)] at heul
    exact absurd heul (by simp)
  obtain ⟨al', be', ga', he, hclose⟩ := C32_close_partial _ hp n1 n2
  rw [heul] at he
  obtain ⟨rfl, rfl, rfl⟩ : al = al' ∧ be = be' ∧ ga = ga' := by
    injection he with e1 e2 e3
    exact ⟨e1, e2, e3⟩
  refine ⟨d, _, hd, hd', fun j k => ?_⟩
  rw [← newRotation_get d.align fx.slope fy.slope sx sy hsx hsy slx sly]
  exact hclose j k

/-- C107: a DUT whose x axis is parallel to the beam axis cannot be pre-aligned. -/
theorem C107_parallel (env : Env) (file : File) (tel tel' : List PDut) (same : Bool) (sel : Option (List Nat)) (ref i : Nat)
    (hi : Aligned tel.length ref sel i) (d : PDut) (hd : tel[i]? = some d)
    (hr : rotationMatrix d.align.alpha d.align.beta d.align.gamma 2 0 = 1 ∨ rotationMatrix d.align.alpha d.align.beta d.align.gamma 2 0 = -1) :
    prealign env file tel same sel ref ≠ .ok tel' := by
  intro h
  obtain ⟨d0, nx, ny, fx, fy, mx, my, al, be, ga, hd0, -, -, -, -, -, -, heul, -⟩ := prealign_fits h hi
  rw [hd] at hd0
  obtain rfl := Option.some.inj hd0
  have hp := newRotation_proper d.align fx.slope fy.slope
  have : newRotation d.align fx.slope fy.slope 2 0 = 1 ∨ newRotation d.align fx.slope fy.slope 2 0 = -1 := by
    rcases newRotation_20 d.align fx.slope fy.slope with e | e <;> rw [e] <;> rcases hr with e' | e' <;> rw [e'] <;> norm_num
  rw [C32_gimbal_lock _ hp this] at heul
  exact absurd heul (by simp)

/-! ### C108: which DUTs are changed -/

/-- C108: the reference and the DUTs that are not selected are unchanged. -/
theorem C108_others (env : Env) (file : File) (tel tel' : List PDut) (same : Bool) (sel : Option (List Nat)) (ref i : Nat)
    (h : prealign env file tel same sel ref = .ok tel') (hi : ¬ Aligned tel.length ref sel i) : tel'[i]? = tel[i]? :=
  ((prealign_ok_iff _ _ _ _ _ _ _).mp h).2.2.2 i hi

/-- C108: the position along the beam and the pixels are never changed. -/
theorem C108_z (env : Env) (file : File) (tel tel' : List PDut) (same : Bool) (sel : Option (List Nat)) (ref : Nat)
    (h : prealign env file tel same sel ref = .ok tel') :
    tel'.map (fun d => (d.align.z, d.pixels)) = tel.map fun d => (d.align.z, d.pixels) := by
  apply List.ext_getElem?
  intro i
  rw [List.getElem?_map, List.getElem?_map]
  by_cases hi : Aligned tel.length ref sel i
  · obtain ⟨d, nx, ny, fx, fy, mx, my, al, be, ga, hd, -, -, -, -, -, -, -, hd'⟩ := prealign_fits h hi
    rw [hd, hd']
    rfl
  · rw [C108_others env file tel tel' same sel ref i h hi]

/-- C108: order and repetitions of the selection do not matter. -/
theorem C108_order (env : Env) (file : File) (tel tel₁ tel₂ : List PDut) (same : Bool) (s₁ s₂ : List Nat) (ref : Nat)
    (hs : ∀ i, i ∈ s₁ ↔ i ∈ s₂) (h1 : prealign env file tel same (some s₁) ref = .ok tel₁) :
    prealign env file tel same (some s₂) ref = .ok tel₁ := by
  rw [prealign_ok_iff] at h1 ⊢
  have : ∀ i, Aligned tel.length ref (some s₂) i ↔ Aligned tel.length ref (some s₁) i := by
    intro i
    unfold Aligned
    dsimp only
    rw [hs]
  simp only [this]
  exact h1

/-- C108: no selection is the selection of all DUTs. -/
theorem C108_default (env : Env) (file : File) (tel : List PDut) (same : Bool) (ref : Nat) :
    prealign env file tel same none ref = prealign env file tel same (some (List.range tel.length)) ref := rfl

/-- C108: the selected DUTs and the reference have to exist, the nodes too, and the output must be another file. -/
theorem C108_errors (env : Env) (file : File) (tel tel' : List PDut) (same : Bool) (sel : Option (List Nat)) (ref : Nat)
    (hbad : same = true ∨ (∃ i, Aligned tel.length ref sel i) ∧ tel.length ≤ ref ∨
      ∃ i, Aligned tel.length ref sel i ∧ (tel.length ≤ i ∨ file i true = none ∨ file i false = none)) :
    prealign env file tel same sel ref ≠ .ok tel' := by
  intro h
  have h' := (prealign_ok_iff _ _ _ _ _ _ _).mp h
  rcases hbad with h1 | ⟨⟨i, hi⟩, h1⟩ | ⟨i, hi, h1⟩
  · rw [h'.1] at h1
    exact absurd h1 (by simp)
  · obtain ⟨d, d', -, hp, -⟩ := h'.2.2.1 i hi
    have := ((prealignDut_ok_iff _ _ _ _ _ _).mp hp).1
    rw [decide_eq_true_eq] at this
    omega
  · obtain ⟨d, nx, ny, fx, fy, mx, my, al, be, ga, hd, hx, hy, -⟩ := prealign_fits h hi
    rcases h1 with h1 | h1 | h1
    · have := (List.getElem?_eq_some_iff.mp hd).1
      omega
    · rw [hx] at h1; exact absurd h1 (by simp)
    · rw [hy] at h1; exact absurd h1 (by simp)

/-! ### Examples -/

/-- Sorting by insertion, constant density. -/
noncomputable def exEnv : Env := ⟨fun f l => l.insertionSort fun a b => f b ≤ f a, fun _ _ => 1⟩

theorem exEnv_sorts : Sorts exEnv := by
  intro f l
  have : Std.Total fun a b : Nat × Nat => f b ≤ f a := ⟨fun a b => le_total _ _⟩
  have : IsTrans (Nat × Nat) fun a b => f b ≤ f a := ⟨fun a b c h1 h2 => le_trans h2 h1⟩
  exact ⟨List.perm_insertionSort _ _, List.pairwise_insertionSort _ _⟩

/-- Five bins with the given positions of the peaks; the DUT and the reference have the range from -5/2 to 5/2. -/
noncomputable def exRow (j : Nat) : List ℝ := (List.range 5).map fun k : Nat => if k = j then (7 : ℝ) else 1

noncomputable def exNode (peaks : List Nat) : Node := ⟨1, (-(5 / 2), 5 / 2), (-(5 / 2), 5 / 2), peaks.map exRow⟩

theorem exRow_peak (j : Nat) (hj : j < 5) : IsPeak (exRow j) j := by
  refine ⟨by simpa [exRow] using hj, fun k hk => ?_, fun k hk => ?_⟩
  · simp only [exRow, List.getElem_map, List.getElem_range, if_true]
    split_ifs <;> norm_num
  · simp only [exRow, List.getElem_map, List.getElem_range, if_true]
    rw [if_neg hk.ne]
    norm_num

theorem exNode_regular (peaks : List Nat) (hl : peaks.length = 5) : Regular (exNode peaks) := by
  refine ⟨one_pos, ?_, ?_⟩
  · cases peaks with
    | nil => simp at hl
    | cons p ps =>
      intro row hrow
      obtain ⟨q, -, rfl⟩ := List.mem_map.mp hrow
      simp [exNode, Node.refBins, exRow]
  · simp only [exNode, List.length_map, hl]
    norm_num

/-- Positive and negative correlation. -/
theorem exNode_pos : Correlated (exNode [0, 1, 2, 3, 4]) 1 0 0 := by
  intro i hi j hj
  have hi5 : i < 5 := hi
  have : j = i := by
    rw [← peak_eq hj]
    interval_cases i <;> exact peak_eq (exRow_peak _ (by norm_num))
  subst this
  simp [refCentre, dutCentre, dutMiddle, exNode]

theorem exNode_neg : Correlated (exNode [4, 3, 2, 1, 0]) (-1) 0 0 := by
  intro i hi j hj
  have hi5 : i < 5 := hi
  have : j = 4 - i := by
    rw [← peak_eq hj]
    interval_cases i <;> exact peak_eq (exRow_peak _ (by norm_num))
  subst this
  interval_cases i <;> simp [refCentre, dutCentre, dutMiddle, exNode] <;> norm_num

theorem sqrt12 : 3 ≤ Real.sqrt 12 := Real.le_sqrt_of_sq_le (by norm_num)

/-- The fit of the example. -/
theorem exFit_exists (peaks : List Nat) (hl : peaks.length = 5) (s : ℝ) (hs : s = 1 ∨ s = -1) (hc : Correlated (exNode peaks) s 0 0) :
    ∃ f, fitAxis exEnv (exNode peaks) 1 = .ok f ∧ |f.slope - s| ≤ 1 / 10 ∧ f.limit.1 ≤ 0 ∧ 0 ≤ f.limit.2 := by
  have hreg := exNode_regular peaks hl
  obtain ⟨f, hf, -, hsl⟩ := C105_succeeds exEnv exEnv_sorts (fun _ _ => one_pos) _ hreg (by simp [exNode, hl]) (by
    cases peaks with
    | nil => simp at hl
    | cons p ps => simp [exNode, Node.refBins, exRow]) (by simp [refMiddle, exNode]) s 0 hs hc 1 (by
      have := sqrt12
      show 3 / 4 * (1 : ℝ) < _
      linarith)
  refine ⟨f, hf, hsl, ?_⟩
  obtain ⟨l, -, -, -, hlim⟩ := fitAxis_ok hf
  unfold posLimit at hlim
  split at hlim
  · exact absurd hlim (by simp)
  · split at hlim
    · exact absurd hlim (by simp)
    · rename_i lim hm
      obtain rfl := Except.ok.inj hlim
      refine (minMax_some hm).2.2 0 ?_
      have hlen : (exNode peaks).dutPos.length = 5 := by rw [dutPos_length]; simp [exNode, hl]
      have h2 : (exNode peaks).dutPos[2] = 0 := by
        rw [dutPos_get hreg]
        simp [dutCentre, exNode]
        norm_num
      have hmem : (0 : ℝ) ∈ (exNode peaks).dutPos := h2 ▸ List.getElem_mem _
      unfold dense
      rw [List.mem_filter]
      refine ⟨hmem, ?_⟩
      rw [decide_eq_true_eq]
      have hle := (foldl_max_mem ((exNode peaks).dutPos.map (exEnv.density ((exNode peaks).inliers l 1))).tail
        (((exNode peaks).dutPos.map (exEnv.density ((exNode peaks).inliers l 1))).headD 0)).1
      have hall : ∀ m ∈ (((exNode peaks).dutPos.map (exEnv.density ((exNode peaks).inliers l 1))).headD 0) ::
          ((exNode peaks).dutPos.map (exEnv.density ((exNode peaks).inliers l 1))).tail, m ≤ 1 := by
        intro m hm
        cases hp : (exNode peaks).dutPos with
        | nil => rw [hp] at hlen; simp at hlen
        | cons a rest =>
          rw [hp] at hm
          simp only [exEnv, List.map_cons, List.headD_cons, List.tail_cons, List.mem_cons, List.mem_map] at hm
          rcases hm with rfl | ⟨_, -, rfl⟩ <;> exact le_rfl
      have := hall _ hle
      have e1 : exEnv.density ((exNode peaks).inliers l 1) 0 = 1 := rfl
      rw [e1]
      linarith

/-- Two planes with 5 x 5 pixels, without limits or with a limit in x. -/
noncomputable def exPDut (z : ℝ) (x : Option (ℝ × ℝ)) : PDut := ⟨⟨1, 1, 5, 5⟩, ⟨0, 0, z, 0, 0, 0⟩, x, none⟩

/-- Telescope and correlation of the examples: the second plane is correlated with the directions `sx` and `sy`. -/
noncomputable def exTel (x : Option (ℝ × ℝ)) : List PDut := [exPDut 0 none, exPDut 1000 x]

def exPeaks (negative : Bool) : List Nat := if negative then [4, 3, 2, 1, 0] else [0, 1, 2, 3, 4]

def exSign (negative : Bool) : ℝ := if negative then -1 else 1

noncomputable def exFile (nx ny : Bool) : File := fun _ b => some (exNode (exPeaks (if b then nx else ny)))

theorem exCorrelated (negative : Bool) : Correlated (exNode (exPeaks negative)) (exSign negative) 0 0 := by
  cases negative
  · exact exNode_pos
  · exact exNode_neg

theorem exSign_or (negative : Bool) : exSign negative = 1 ∨ exSign negative = -1 := by cases negative <;> simp [exSign]

/-- The pre-alignment of the example succeeds for all directions. -/
theorem exPrealign (nx ny : Bool) (x : Option (ℝ × ℝ)) : ∃ tel', prealign exEnv (exFile nx ny) (exTel x) false none 0 = .ok tel' := by
  obtain ⟨fx, hfx, hsx, hx1, hx2⟩ := exFit_exists (exPeaks nx) (by cases nx <;> rfl) (exSign nx) (exSign_or _) (exCorrelated nx)
  obtain ⟨fy, hfy, hsy, hy1, hy2⟩ := exFit_exists (exPeaks ny) (by cases ny <;> rfl) (exSign ny) (exSign_or _) (exCorrelated ny)
  have hR : rotationMatrix (exPDut 1000 x).align.alpha (exPDut 1000 x).align.beta (exPDut 1000 x).align.gamma 2 0 = 0 := by
    rw [rotationMatrix_eq]; simp [exPDut]
  have h20 : newRotation (exPDut 1000 x).align fx.slope fy.slope 2 0 = 0 := by
    rcases newRotation_20 (exPDut 1000 x).align fx.slope fy.slope with h | h <;> rw [h, hR] <;> simp
  obtain ⟨al, be, ga, heul, -⟩ := C32_close_partial _ (newRotation_proper (exPDut 1000 x).align fx.slope fy.slope) (by rw [h20]; norm_num)
    (by rw [h20]; norm_num)
  have hin : inside (exPDut 1000 x) fx fy ≠ [] := by
    apply List.ne_nil_of_mem (a := (((3 : Nat) : ℝ), ((3 : Nat) : ℝ)))
    refine List.mem_filter.mpr ⟨(allPixels_mem _ _).mpr ⟨3, 3, by norm_num, by norm_num [exPDut], by norm_num, by norm_num [exPDut], rfl⟩, ?_⟩
    have hg : globalOf (exPDut 1000 x).pixels (exPDut 1000 x).align (((3 : Nat) : ℝ), ((3 : Nat) : ℝ)) = ![0, 0, 1000] := by
      have hl : localOf (exPDut 1000 x).pixels (((3 : Nat) : ℝ), ((3 : Nat) : ℝ)) = 0 := by
        ext i
        fin_cases i <;> simp [localOf, exPDut] <;> norm_num
      unfold globalOf
      rw [hl, Matrix.mulVec_zero, zero_add]
      rfl
    rw [hg]
    unfold inRange
    simp only [Bool.and_eq_true, decide_eq_true_eq]
    exact ⟨⟨hx1, hx2⟩, hy1, hy2⟩
  obtain ⟨mx, hmx⟩ := minMax_ne (l := (inside (exPDut 1000 x) fx fy).map fun p => localOf (exPDut 1000 x).pixels p 0) (by simpa using hin)
  obtain ⟨my, hmy⟩ := minMax_ne (l := (inside (exPDut 1000 x) fx fy).map fun p => localOf (exPDut 1000 x).pixels p 1) (by simpa using hin)
  have hset := (setDut_ok_iff (exPDut 1000 x) _ fx fy).mpr ⟨mx, my, al, be, ga, hmx, hmy, heul, rfl⟩
  obtain ⟨d', hdut⟩ : ∃ d', prealignDut exEnv (exFile nx ny) true 1 (exPDut 1000 x) = .ok d' :=
    ⟨_, (prealignDut_ok_iff _ _ 1 true _ _).mpr ⟨rfl, _, _, fx, fy, rfl, rfl, hfx, hfy, hset⟩⟩
  refine ⟨[exPDut 0 none, d'], (prealign_ok_iff _ _ _ _ _ _ _).mpr ⟨rfl, rfl, ?_, ?_⟩⟩
  rotate_left
  · intro k hk
    have h1 : k ≠ 1 := fun h => hk ⟨by omega, by simp [h, exTel]⟩
    match k with
    | 0 => rfl
    | 1 => exact absurd rfl h1
    | k + 2 => simp [exTel]
  · intro k ⟨h0, h2⟩
    have h1 : k = 1 := by
      have : k < 2 := h2
      omega
    subst h1
    exact ⟨_, _, rfl, hdut, rfl⟩

theorem exAligned (x : Option (ℝ × ℝ)) : Aligned (exTel x).length 0 none 1 := ⟨by norm_num, by simp [exTel]⟩

/-- C103, C104: the example has a fit, the line is one of the grid. -/
example : ∃ f, fitAxis exEnv (exNode [4, 3, 2, 1, 0]) 1 = .ok f ∧ (|f.slope - 1| ≤ 1 / 10 ∨ |f.slope + 1| ≤ 1 / 10) := by
  obtain ⟨f, hf, -⟩ := exFit_exists (exPeaks true) rfl (exSign true) (exSign_or _) (exCorrelated true)
  obtain ⟨-, -, -, -, -, h, -⟩ := C103_line exEnv exEnv_sorts _ (exNode_regular _ rfl) 1 f hf
  exact ⟨f, hf, h⟩

/-- C104: a noisy reference. -/
example : ∃ f, fitAxis exEnv (exNode [1, 1, 1, 1, 1]) 1 = .ok f := by
  have hp : ∀ i (h : i < (exNode [1, 1, 1, 1, 1]).data.length), (exNode [1, 1, 1, 1, 1]).data[i] = exRow 1 := by
    intro i h
    have : (exNode [1, 1, 1, 1, 1]).data[i] ∈ (exNode [1, 1, 1, 1, 1]).data := List.getElem_mem h
    obtain ⟨p, hp, he⟩ := List.mem_map.mp this
    simp only [List.mem_cons, List.not_mem_nil, or_false, or_self] at hp
    rw [← he, hp]
  refine C104_noise exEnv exEnv_sorts (fun _ _ => one_pos) _ (exNode_regular _ rfl) (by simp [exNode]) (by simp [refMiddle, exNode]) 1
    one_ne_zero (fun i h => by rw [hp i h]; exact exRow_peak 1 (by norm_num)) 1 ?_
  have := sqrt12
  show 2 * (1 : ℝ) < _
  linarith

/-- C104: an empty histogram. -/
example (tel' : List PDut) : prealign exEnv (fun _ _ => some ⟨1, (0, 2), (0, 2), [[0, 0], [0, 0]]⟩) (exTel none) false none 0 ≠ .ok tel' :=
  C104_empty_partial _ _ _ _ _ _ _ 1 (exAligned none) true _ rfl (by simp)

/-- C105, C107: the second plane is found at zero and is turned around y. -/
example : ∃ tel' d', prealign exEnv (exFile true false) (exTel none) false none 0 = .ok tel' ∧ tel'[1]? = some d' ∧
    |d'.align.x| ≤ 4 / 5 ∧ |rotationMatrix d'.align.alpha d'.align.beta d'.align.gamma 0 0 - -1| ≤ 5 * eps := by
  obtain ⟨tel', h⟩ := exPrealign true false none
  obtain ⟨d', hd', hx, -⟩ := C105_position_partial exEnv exEnv_sorts _ _ _ _ _ _ 1 h (exAligned none) _ _ rfl rfl (exNode_regular _ rfl)
    (exNode_regular _ rfl) (by simp [exNode, exPeaks]) (by simp [exNode, exPeaks]) _ 0 0 _ 0 0 (exSign_or true) (exSign_or false)
    (exCorrelated true) (exCorrelated false) (by simp [exNode]) (by simp [exNode])
  obtain ⟨d, d'', hd, hd'', hr⟩ := C107_turned exEnv exEnv_sorts _ _ _ _ _ _ 1 h (exAligned none) _ _ rfl rfl (exNode_regular _ rfl)
    (exNode_regular _ rfl) (by simp [exNode, exPeaks]) (by simp [exNode, exPeaks]) _ 0 0 _ 0 0 (exSign_or true) (exSign_or false)
    (exCorrelated true) (exCorrelated false) (by simp [exNode]) (by simp [exNode])
  obtain rfl := Option.some.inj (hd'.symm.trans hd'')
  obtain rfl := Option.some.inj (hd.symm.trans (show (exTel none)[1]? = some (exPDut 1000 none) from rfl))
  refine ⟨tel', d', h, hd', by simpa [exNode] using hx, ?_⟩
  have := hr 0 0
  have e : rotationMatrix (exPDut 1000 none).align.alpha (exPDut 1000 none).align.beta (exPDut 1000 none).align.gamma 0 0 = 1 := by
    rw [rotationMatrix_eq]; simp [exPDut]
  rw [e] at this
  simpa [exSign] using this

/-- C105: the same sensors, but the range of the reference starts at zero and is large. -/
example (tel' : List PDut) :
    prealign exEnv (fun _ _ => some ⟨1, (0, 20), (-1, 1), [[0, 0, 1], [0, 1, 0]]⟩) (exTel none) false none 0 ≠ .ok tel' := by
  have hc : Correlated ⟨1, (0, 20), (-1, 1), [[0, 0, 1], [0, 1, 0]]⟩ (-1) 2 0 := by
    intro i hi j hj
    have hi2 : i < 2 := hi
    have : j = 2 - i := by
      rw [← peak_eq hj]
      interval_cases i
      · refine peak_eq ⟨by simp, fun k hk => ?_, fun k hk => ?_⟩
        · have : k < 3 := hk
          interval_cases k <;> simp
        · interval_cases k <;> simp
      · refine peak_eq ⟨by simp, fun k hk => ?_, fun k hk => ?_⟩
        · have : k < 3 := hk
          interval_cases k <;> simp
        · interval_cases k <;> simp
    subst this
    interval_cases i <;> simp [refCentre, dutCentre, dutMiddle] <;> norm_num
  refine C105_reference exEnv exEnv_sorts _ _ _ _ _ _ 1 (exAligned none) (exPDut 1000 none) rfl _ ⟨one_pos, by simp [Node.refBins], by norm_num⟩
    (-1) 2 (.inr rfl) hc (.inl ⟨rfl, ?_⟩)
  have : Real.sqrt 12 ≤ 4 := Real.sqrt_le_iff.mpr ⟨by norm_num, by norm_num⟩
  simp only [exPDut, refMiddle]
  rw [abs_of_pos (by norm_num)]
  linarith

/-- C106: a limit far outside of the sensor: the new limit is between the sensor and the old limit. -/
example : ∃ tel' d' n, prealign exEnv (exFile true false) (exTel (some (10, 20))) false none 0 = .ok tel' ∧ tel'[1]? = some d' ∧
    d'.xLimit = some n ∧ n.1 < n.2 ∧ ∀ x ∈ Set.Ioo n.1 n.2, x ∉ Set.Icc (10 : ℝ) 20 := by
  obtain ⟨tel₁, h1⟩ := exPrealign true false none
  obtain ⟨tel₂, h2⟩ := exPrealign true false (some (10, 20))
  obtain ⟨d₁, ax, bx, ay, b_y, hd1, hx, -, -, -, hp, -⟩ := C106_new_limit _ _ _ _ _ _ _ 1 h1 (exAligned none) (exPDut 1000 none) rfl rfl rfl
  obtain ⟨c, -, hc, hb⟩ := hp bx (by simp)
  have hc' : (c : ℝ) ≤ 5 := by
    have : c ≤ 5 := hc
    exact_mod_cast this
  obtain ⟨_, nx, ny, fx, fy, mx, my, al, be, ga, -, -, -, -, -, -, -, -, hd2⟩ := prealign_fits h2 (exAligned _)
  obtain ⟨n, hn, hlt, hno⟩ := C106_disjoint exEnv (exFile true false) (exTel none) tel₁ tel₂ false none 0 1 (exPDut 1000 none) (10, 20)
    (exAligned none) rfl h1 h2 d₁ _ hd1 hd2 (ax, bx) hx (by norm_num) (.inl (by
      rw [hb]
      simp only [pixelCentre, exPDut]
      push_cast
      linarith))
  exact ⟨tel₂, _, n, h2, hd2, hn, hlt, fun x hx => (hno x hx).2⟩

/-- C107: a plane parallel to the beam. -/
example (tel' : List PDut) : prealign exEnv (exFile true false) [exPDut 0 none, ⟨⟨1, 1, 5, 5⟩, ⟨0, 0, 0, 0, Real.pi / 2, 0⟩, none, none⟩] false
    none 0 ≠ .ok tel' :=
  C107_parallel _ _ _ _ _ _ _ 1 ⟨by norm_num, by simp⟩ _ rfl (.inr (by rw [rotationMatrix_eq]; simp))

/-- C108: the reference is unchanged, a selected plane that does not exist is an error. -/
example : (∃ tel', prealign exEnv (exFile true false) (exTel none) false none 0 = .ok tel' ∧ tel'[0]? = some (exPDut 0 none)) ∧
    ∀ tel', prealign exEnv (exFile true false) (exTel none) false (some [1, 5]) 0 ≠ .ok tel' := by
  obtain ⟨tel', h⟩ := exPrealign true false none
  refine ⟨⟨tel', h, C108_others _ _ _ _ _ _ _ 0 h (fun h => h.1 rfl)⟩, fun tel' => ?_⟩
  exact C108_errors _ _ _ _ _ _ _ (.inr (.inr ⟨5, ⟨by norm_num, by simp⟩, .inl (by simp [exTel])⟩))

end BTA.Props
