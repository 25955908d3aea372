import Verif.Spec.HoughPlot
import Verif.Props.Prealign
/-
C229: plots of the pre-alignment.
-/
namespace BTA.Props
open BTA.Prealign BTA.Prealign.Spec

theorem middles_length : ∀ l : List ℝ, (middles l).length = l.length - 1
  | [] => rfl
  | [_] => rfl
  | a :: b :: l => by
    rw [middles, List.length_cons, middles_length (b :: l)]
    simp

theorem middles_get : ∀ (l : List ℝ) (i : Nat) (h : i < (middles l).length), (middles l)[i] =
    (l[i + 1]'(by rw [middles_length] at h; omega) + l[i]'(by rw [middles_length] at h; omega)) / 2
  | [], i, h => by simp [middles] at h
  | [_], i, h => by simp [middles] at h
  | a :: b :: l, 0, h => rfl
  | a :: b :: l, i + 1, h => by
    have := middles_get (b :: l) i (by rw [middles_length] at h ⊢; simp at h ⊢; omega)
    simpa [middles] using this

/-- First and last edge of equidistant cells. -/
theorem edgesOf_grid (l : List ℝ) (a d : ℝ) (n : Nat) (hn : l.length = n + 2) (h : ∀ i (hi : i < l.length), l[i] = a + i * d) :
    ∃ e, edgesOf l = some e ∧ e.headD 0 = a - d / 2 ∧ e.getLastD 0 = a + ((n : ℝ) + 1) * d + d / 2 := by
  match l, hn, h with
  | x :: y :: rest, hn, h =>
    have h0 : x = a := by
      have := h 0 (by simp)
      rw [List.getElem_cons_zero] at this
      rw [this]
      simp
    have h1 : y = a + d := by
      have := h 1 (by simp)
      rw [List.getElem_cons_succ, List.getElem_cons_zero] at this
      rw [this]
      simp
    refine ⟨_, rfl, ?_, ?_⟩
    · simp only [middles, List.cons_append, List.headD_cons]
      rw [h0, h1]
      ring
    · have hl : (middles (x :: y :: rest)).length = n + 1 := by rw [middles_length, hn]; rfl
      have hlast : (middles (x :: y :: rest)).getLastD 0 = a + ((n : ℝ) + 1) * d - d / 2 := by
        have hne : middles (x :: y :: rest) ≠ [] := by
          intro h0
          rw [h0] at hl
          simp at hl
        rw [List.getLastD_eq_getLast?, List.getLast?_eq_some_getLast hne, Option.getD_some, List.getLast_eq_getElem, middles_get]
        simp only [hl, Nat.add_sub_cancel]
        rw [h (n + 1) (by omega), h n (by omega)]
        push_cast
        ring
      rw [List.getLastD_concat, hlast, h0, h1]
      ring

/-- C229: the pixels of the page with the accumulator are drawn at the angles (in degrees) and distances of the grid, but the number shown there is the one of the opposite angle and the
opposite distance, for every image. -/
theorem C229_mirrored (img : Image) (thetaRes rhoRes : ℝ) (ht : 0 < thetaRes) (hr : 0 < rhoRes) (hq : 1 < (hough img thetaRes rhoRes).rhos.length) :
    ∃ p, accumulatorPage (hough img thetaRes rhoRes) = some p ∧ p.width = (hough img thetaRes rhoRes).thetas.length ∧ p.height = (hough img thetaRes rhoRes).rhos.length ∧
      (∀ c (h : c < (hough img thetaRes rhoRes).thetas.length), centreX p c * (Real.pi / 180) = (hough img thetaRes rhoRes).thetas[c]) ∧
      (∀ r (h : r < (hough img thetaRes rhoRes).rhos.length), centreY p r = (hough img thetaRes rhoRes).rhos[r]) ∧
      ∀ r c, r < p.height → c < p.width → p.val r c = votes img (-(centreX p c * (Real.pi / 180))) (-centreY p r) rhoRes := by
  obtain ⟨⟨n, hn, -, hlt, hgt⟩, q, -, hlr, hgr⟩ := C102_grid img thetaRes rhoRes ht hr
  have hq0 : 0 < q := by omega
  obtain ⟨te, hte, hte1, hte2⟩ := edgesOf_grid (hough img thetaRes rhoRes).thetas (-90 * (Real.pi / 180)) (90 / (n : ℝ) * (Real.pi / 180)) (2 * n - 1) (by rw [hlt]; omega) (by
    intro i hi
    rw [hgt i hi]
    ring)
  obtain ⟨re, hre, hre1, hre2⟩ := edgesOf_grid (hough img thetaRes rhoRes).rhos (-(q : ℝ) * rhoRes) rhoRes (2 * q - 1) (by rw [hlr]; omega) (by
    intro i hi
    rw [hgr i hi]
    ring)
  have e2n : ((2 * n - 1 : Nat) : ℝ) = 2 * n - 1 := by
    rw [Nat.cast_sub (by omega)]
    push_cast
    ring
  have e2q : ((2 * q - 1 : Nat) : ℝ) = 2 * q - 1 := by
    rw [Nat.cast_sub (by omega)]
    push_cast
    ring
  have hn' : (n : ℝ) ≠ 0 := by positivity
  have hpi := Real.pi_ne_zero
  let p : Picture := ⟨rad2deg (te.headD 0), rad2deg (te.getLastD 0), re.headD 0, re.getLastD 0, (hough img thetaRes rhoRes).rhos.length, (hough img thetaRes rhoRes).thetas.length,
      fun r c => (hough img thetaRes rhoRes).acc ((hough img thetaRes rhoRes).rhos.length - 1 - r) ((hough img thetaRes rhoRes).thetas.length - 1 - c)⟩
  have hx : ∀ c (h : c < (hough img thetaRes rhoRes).thetas.length), centreX p c * (Real.pi / 180) = (hough img thetaRes rhoRes).thetas[c] := by
    intro c h
    rw [hgt c h]
    unfold centreX
    show (rad2deg (te.headD 0) + ((c : ℝ) + 1 / 2) * ((rad2deg (te.getLastD 0) - rad2deg (te.headD 0)) / ((hough img thetaRes rhoRes).thetas.length : ℝ))) * (Real.pi / 180) = _
    rw [hte1, hte2, hlt, e2n]
    unfold rad2deg
    have : ((2 * n + 1 : Nat) : ℝ) ≠ 0 := by positivity
    push_cast at this ⊢
    field_simp
    ring
  have hy : ∀ r (h : r < (hough img thetaRes rhoRes).rhos.length), centreY p r = (hough img thetaRes rhoRes).rhos[r] := by
    intro r h
    rw [hgr r h]
    unfold centreY
    show re.headD 0 + ((r : ℝ) + 1 / 2) * ((re.getLastD 0 - re.headD 0) / ((hough img thetaRes rhoRes).rhos.length : ℝ)) = _
    rw [hre1, hre2, hlr, e2q]
    have : ((2 * q + 1 : Nat) : ℝ) ≠ 0 := by positivity
    push_cast at this ⊢
    field_simp
    ring
  refine ⟨p, ?_, rfl, rfl, hx, hy, ?_⟩
  · unfold accumulatorPage
    rw [hte, hre]
  · intro r c h1 h2
    replace h1 : r < (hough img thetaRes rhoRes).rhos.length := h1
    replace h2 : c < (hough img thetaRes rhoRes).thetas.length := h2
    rw [hx c h2, hy r h1]
    show (hough img thetaRes rhoRes).acc ((hough img thetaRes rhoRes).rhos.length - 1 - r) ((hough img thetaRes rhoRes).thetas.length - 1 - c) = _
    rw [C102_votes img thetaRes rhoRes hr _ _ (by omega) (by omega), hgt _ (by omega), hgt c h2, hgr _ (by omega), hgr r h1]
    rw [hlr] at h1
    rw [hlt] at h2
    have c1 : (((hough img thetaRes rhoRes).thetas.length - 1 - c : Nat) : ℝ) = 2 * n - c := by
      rw [hlt, show 2 * n + 1 - 1 - c = 2 * n - c by omega, Nat.cast_sub (by omega)]
      push_cast
      ring
    have c2 : (((hough img thetaRes rhoRes).rhos.length - 1 - r : Nat) : ℝ) = 2 * q - r := by
      rw [hlr, show 2 * q + 1 - 1 - r = 2 * q - r by omega, Nat.cast_sub (by omega)]
      push_cast
      ring
    rw [c1, c2]
    congr 1
    · field_simp
      ring
    · ring

/-- C229 is false for the page with the accumulator: for aligned planes with `n` bins the maximum belongs to -45 degrees and distance 0, where all `n` bins lie on the line, but 1 is shown there. -/
theorem C229_accumulator_fails (n : Nat) (hn : 2 ≤ n) : ∃ p, accumulatorPage (hough (diagonal n) (1 / 10) 1) = some p ∧ ∃ r c, r < p.height ∧ c < p.width ∧
    centreX p c = -45 ∧ centreY p r = 0 ∧ votes (diagonal n) (centreX p c * (Real.pi / 180)) (centreY p r) 1 = n ∧ p.val r c = 1 := by
  obtain ⟨⟨k, hk, -, hlt, hgt⟩, q, hq, hlr, hgr⟩ := C102_grid (diagonal n) (1 / 10) 1 (by norm_num) one_pos
  have hn2 : (2 : ℝ) ≤ n := by exact_mod_cast hn
  have hq0 : 0 < q := by
    have h1 : (0 : ℝ) < Real.sqrt ((((diagonal n).rows : ℝ) - 1) ^ 2 + (((diagonal n).cols : ℝ) - 1) ^ 2) := by
      apply Real.sqrt_pos.mpr
      have : ((diagonal n).rows : ℝ) = n := rfl
      rw [this]
      have h2 : (0 : ℝ) < ((n : ℝ) - 1) ^ 2 := by
        have : (0 : ℝ) < (n : ℝ) - 1 := by linarith
        positivity
      have h3 : (0 : ℝ) ≤ (((diagonal n).cols : ℝ) - 1) ^ 2 := by positivity
      linarith
    have h2 : (0 : ℝ) < q := by linarith
    exact_mod_cast h2
  obtain ⟨p, hp, hw, hh, hx, hy, hv⟩ := C229_mirrored (diagonal n) (1 / 10) 1 (by norm_num) one_pos (by rw [hlr]; omega)
  have hlen : (hough (diagonal n) (1 / 10) 1).thetas.length = 1801 := thetas_length'
  have hc : (450 : Nat) < (hough (diagonal n) (1 / 10) 1).thetas.length := by rw [hlen]; norm_num
  have hr : q < (hough (diagonal n) (1 / 10) 1).rhos.length := by rw [hlr]; omega
  have hk900 : k = 900 := by omega
  have hpi := Real.pi_ne_zero
  have ex : centreX p 450 = -45 := by
    have := hx 450 hc
    rw [hgt 450 hc, hk900] at this
    have h2 : centreX p 450 = (-90 + ((450 : Nat) : ℝ) * (90 / ((900 : Nat) : ℝ))) := mul_right_cancel₀ (show Real.pi / 180 ≠ 0 by positivity) this
    rw [h2]
    norm_num
  have ey : centreY p q = 0 := by
    rw [hy q hr, hgr q hr]
    ring
  have htheta : centreX p 450 * (Real.pi / 180) = -(Real.pi / 4) := by
    rw [ex]
    ring
  refine ⟨p, hp, q, 450, by rw [hh]; exact hr, by rw [hw]; exact hc, ex, ey, ?_, ?_⟩
  · rw [htheta, ey]
    have : {m : Nat × Nat | m.1 < (diagonal n).rows ∧ m.2 < (diagonal n).cols ∧ (diagonal n).pix m.1 m.2 = true ∧
        (0 : ℝ) - 1 / 2 < m.2 * Real.cos (-(Real.pi / 4)) + m.1 * Real.sin (-(Real.pi / 4)) ∧ m.2 * Real.cos (-(Real.pi / 4)) + m.1 * Real.sin (-(Real.pi / 4)) ≤ 0 + 1 / 2} =
        (fun i => (i, i)) '' (Set.Iio n) := by
      ext ⟨y, x⟩
      simp only [Set.mem_setOf_eq, Real.cos_neg, Real.sin_neg, Real.cos_pi_div_four, Real.sin_pi_div_four, diagonal, beq_iff_eq, Set.mem_image, Set.mem_Iio, Prod.mk.injEq]
      constructor
      · rintro ⟨h1, h2, rfl, -⟩
        exact ⟨y, h1, rfl, rfl⟩
      · rintro ⟨i, hi, rfl, rfl⟩
        refine ⟨hi, hi, rfl, ?_, ?_⟩ <;> ring_nf <;> norm_num
    unfold votes
    rw [this, Set.ncard_image_of_injective _ (fun a b h => (Prod.mk.inj h).1), ncard_Iio]
  · rw [hv q 450 (by rw [hh]; exact hr) (by rw [hw]; exact hc), htheta, ey, neg_neg, neg_zero]
    have : {m : Nat × Nat | m.1 < (diagonal n).rows ∧ m.2 < (diagonal n).cols ∧ (diagonal n).pix m.1 m.2 = true ∧
        (0 : ℝ) - 1 / 2 < m.2 * Real.cos (Real.pi / 4) + m.1 * Real.sin (Real.pi / 4) ∧ m.2 * Real.cos (Real.pi / 4) + m.1 * Real.sin (Real.pi / 4) ≤ 0 + 1 / 2} = {(0, 0)} := by
      ext ⟨y, x⟩
      simp only [Set.mem_setOf_eq, Real.cos_pi_div_four, Real.sin_pi_div_four, diagonal, beq_iff_eq, Set.mem_singleton_iff, Prod.mk.injEq]
      constructor
      · rintro ⟨h1, h2, rfl, h3, h4⟩
        have hs : (1 : ℝ) ≤ Real.sqrt 2 := Real.le_sqrt_of_sq_le (by norm_num)
        have h5 : (y : ℝ) * Real.sqrt 2 ≤ 1 / 2 := by linarith
        have h6 : (y : ℝ) * 1 ≤ y * Real.sqrt 2 := mul_le_mul_of_nonneg_left hs (Nat.cast_nonneg y)
        have h7 : (y : ℝ) < 1 := by linarith
        have h8 : y < 1 := by exact_mod_cast h7
        exact ⟨by omega, by omega⟩
      · rintro ⟨rfl, rfl⟩
        refine ⟨by omega, by omega, rfl, ?_, ?_⟩ <;> norm_num
    unfold votes
    rw [this, Set.ncard_singleton]

/-- C229: the second page. Each bin of the DUT has exactly one dark pixel, at the most populated bin of the reference; pixels are drawn at the centres of the bins. The line is drawn at the
centres of the bins of the DUT and is the line of the pre-alignment: its slope, and the new position of the DUT at the centre of the DUT. The markers are the limits that are used. -/
theorem C229_line_partial (env : Env) (nd : Node) (hreg : Regular nd) (href : RefRegular nd) (hs : Sorts env) (pixelSize : ℝ) (f : Fit) (hf : fitAxis env nd pixelSize = .ok f) :
    ∃ acc page, houghPages env nd pixelSize = .ok (acc, page) ∧ page.limits = f.limit ∧
      page.picture.width = nd.data.length ∧ page.picture.height = nd.refBins ∧
      (∀ c, centreX page.picture c = dutCentre nd c) ∧ (∀ r, centreY page.picture r = refCentre nd r) ∧
      (∀ c (h : c < nd.data.length) r, page.picture.val r c = 1 ↔ IsPeak nd.data[c] r) ∧ (∀ r c, page.picture.val r c ≤ 1) ∧
      page.line.length = nd.data.length ∧ (∀ i (h : i < page.line.length), page.line[i] = (dutCentre nd i, f.slope * (dutCentre nd i - dutMiddle nd) + f.offsetCenter)) := by
  obtain ⟨l, hl, hsl, hoff, hlim⟩ := fitAxis_ok hf
  obtain ⟨hb, hd, -⟩ := line_ok hs hreg hl
  have hedge : ¬ (hough nd.image (1 / 10) 1).rhos.length ≤ 1 := by
    intro hle
    unfold Node.line at hl
    split at hl
    · cases hl
    · cases hl
  obtain ⟨acc, hacc, -⟩ := C229_mirrored nd.image (1 / 10) 1 (by norm_num) one_pos (by omega)
  have hres := hreg.res.ne'
  have hlen : (nd.data.length : ℝ) ≠ 0 := by
    have : nd.data.length ≠ 0 := fun h => hd (List.length_eq_zero_iff.mp h)
    exact_mod_cast this
  have hbins : (nd.refBins : ℝ) ≠ 0 := by exact_mod_cast hb
  refine ⟨acc, linePage nd l f.limit, ?_, rfl, rfl, rfl, ?_, ?_, ?_, ?_, ?_, ?_⟩
  · unfold houghPages
    rw [hl]
    dsimp only
    rw [hlim]
    dsimp only
    rw [hacc]
  · intro c
    unfold centreX dutCentre
    show nd.dutExtent.1 + ((c : ℝ) + 1 / 2) * ((nd.dutExtent.2 - nd.dutExtent.1) / (nd.data.length : ℝ)) = _
    rw [hreg.extent]
    field_simp
  · intro r
    unfold centreY refCentre
    show nd.refExtent.1 + ((r : ℝ) + 1 / 2) * ((nd.refExtent.2 - nd.refExtent.1) / (nd.refBins : ℝ)) = _
    rw [href]
    field_simp
  · intro c h r
    show (if nd.image.pix r c = true then 1 else 0) = 1 ↔ _
    have hne := rows_ne hreg hb c h
    constructor
    · intro h1
      split at h1
      · rename_i hp
        obtain ⟨h', rfl⟩ := (image_pix nd r c).mp hp
        exact argmax_peak _ hne
      · cases h1
    · intro hp
      rw [if_pos ((image_pix nd r c).mpr ⟨h, peak_eq hp⟩)]
  · intro r c
    show (if nd.image.pix r c = true then 1 else 0) ≤ 1
    split <;> omega
  · show (nd.dutPos.map _).length = _
    rw [List.length_map, dutPos_length]
  · intro i h
    have hi : i < nd.dutPos.length := by simpa [linePage] using h
    have h0 : 0 < nd.dutPos.length := by omega
    have : (linePage nd l f.limit).line[i] = (nd.dutPos[i], nd.offsetPlot l + l.slope * nd.dutPos[i]) := by simp [linePage]
    rw [this, dutPos_get hreg, hsl, hoff]
    congr 1
    unfold Node.offsetPlot Node.offsetCenter
    rw [headD_get _ h0, dutPos_get hreg]
    unfold dutCentre dutMiddle
    have := hreg.extent
    push_cast
    ring

/-- C229: the pages of the example with a negative correlation. -/
example : ∃ acc page, houghPages exEnv (exNode [4, 3, 2, 1, 0]) 1 = .ok (acc, page) ∧ page.picture.val 4 0 = 1 ∧ page.line.length = 5 := by
  obtain ⟨f, hf, -⟩ := exFit_exists [4, 3, 2, 1, 0] rfl (-1) (.inr rfl) exNode_neg
  obtain ⟨acc, page, h1, -, -, -, -, -, h2, -, h3, -⟩ := C229_line_partial exEnv _ (exNode_regular _ rfl) (by norm_num [RefRegular, exNode, Node.refBins, exRow]) exEnv_sorts 1 f hf
  exact ⟨acc, page, h1, (h2 0 (by simp [exNode]) 4).mpr (exRow_peak 4 (by norm_num)), h3⟩

/-- C229: an image with five bins. -/
example : ∃ p, accumulatorPage (hough (diagonal 5) (1 / 10) 1) = some p ∧ ∃ r c, centreX p c = -45 ∧ centreY p r = 0 ∧ p.val r c = 1 := by
  obtain ⟨p, hp, r, c, -, -, h1, h2, -, h3⟩ := C229_accumulator_fails 5 (by norm_num)
  exact ⟨p, hp, r, c, h1, h2, h3⟩

end BTA.Props
