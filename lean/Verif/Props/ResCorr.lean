import Verif.Lemmas.ResCorr
/-
C213: the correlation of residuals that is shown. C214: `binned_statistic`. C215: `calculate_residual_correlation`.
-/
namespace BTA.Props
open BTA.ResCorr BTA.ResCorr.Spec

/-- What the page of a DUT and a direction shows: for each bin its centre, the number of pairs and Pearson's coefficient. -/
structure ShowsCorrelation (nd : Node) (pg : Page) : Prop where
  bins : pg.centers.length + 1 = nd.edges.length ∧ pg.points.length + 1 = nd.edges.length
  centre : ∀ (i : Nat) (a b : ℝ), nd.edges[i]? = some a → nd.edges[i + 1]? = some b → pg.centers[i]? = some ((a + b) / 2)
  point : ∀ i, i + 1 < nd.edges.length → Varies (pairs nd i) ∧ |pearson (pairs nd i)| ≤ 1 ∧
    pg.points[i]? = some ((pairs nd i).length, some (pearson (pairs nd i)))

/-! ### Helper lemmas -/

theorem fit_ok_iff (opt : Optimizer) (centers : List ℝ) (points : List (Nat × Option ℝ)) (size : ℝ) (q : Param) :
    fit opt centers points size = .ok q ↔ ∃ last ys, centers.getLast? = some last ∧ points.map Prod.snd = ys.map some ∧ 0 < last ∧ 0 ≤ size ∧ size ≤ last ∧
      opt (List.zip centers (List.zip ys (points.map fun p => Real.sqrt p.1))) ⟨1 / 10, 1 / 2, Real.pi / 2, 1, size⟩ = some q := by
  unfold fit
  cases hl : centers.getLast? with
  | none => simp
  | some last =>
    dsimp only
    cases hf : finite (points.map Prod.snd) with
    | none =>
      simp only [reduceCtorEq, false_iff]
      rintro ⟨last', ys, -, h, -⟩
      rw [(finite_iff _ _).mpr h] at hf
      exact absurd hf (by simp)
    | some ys =>
      dsimp only
      have hys := (finite_iff _ _).mp hf
      have uniq : ∀ ys', points.map Prod.snd = ys'.map some → ys' = ys := by
        intro ys' h
        have := (finite_iff _ _).mpr h
        rw [hf] at this
        exact (Option.some.inj this).symm
      by_cases hb : last ≤ 0 ∨ size < 0 ∨ last < size
      · rw [if_pos hb]
        simp only [reduceCtorEq, false_iff]
        rintro ⟨last', ys', h1, -, h2, h3, h4, -⟩
        obtain rfl := Option.some.inj h1
        rcases hb with h | h | h <;> linarith
      · rw [if_neg hb]
        push Not at hb
        constructor
        · intro h
          split at h
          · exact absurd h (by simp)
          · rename_i q' hq
            obtain rfl := Except.ok.inj h
            exact ⟨last, ys, rfl, hys, hb.1, hb.2.1, hb.2.2, hq⟩
        · rintro ⟨last', ys', h1, h2, -, -, -, h3⟩
          obtain rfl := uniq ys' h2
          rw [h3]

theorem center_get {edges : List ℝ} {i : Nat} {a b : ℝ} (h1 : edges[i]? = some a) (h2 : edges[i + 1]? = some b) : (binCenters edges)[i]? = some ((a + b) / 2) := by
  unfold binCenters
  rw [List.getElem?_zipWith, h1, List.getElem?_tail, h2]
  simp [add_comm]

theorem page_ok {nd : Node} (hs : Stored nd) {cs : Nat} (hcs : 0 < cs) {opt : Optimizer} {size : ℝ} {pg : Page} (h : page opt cs size nd = .ok pg) :
    nd.ref.length ≠ 0 ∧ pg.centers = binCenters nd.edges ∧ pg.points = (List.range (binCenters nd.edges).length).map (fun i => ((pairs nd i).length, corrcoef (pairs nd i))) ∧
      fit opt pg.centers pg.points size = .ok pg.param := by
  rw [page_eq hs hcs] at h
  split at h
  · exact absurd h (by simp)
  rename_i h0
  split at h
  · exact absurd h (by simp)
  rename_i q hq
  obtain rfl := Except.ok.inj h
  refine ⟨fun hz => ?_, rfl, rfl, hq⟩
  obtain ⟨last, -, hl, -⟩ := (fit_ok_iff _ _ _ _ _).mp hq
  exact h0 ⟨fun he => by rw [he] at hl; simp at hl, hz⟩

theorem page_shows {nd : Node} (hs : Stored nd) {cs : Nat} (hcs : 0 < cs) {opt : Optimizer} {size : ℝ} {pg : Page} (h : page opt cs size nd = .ok pg) :
    ShowsCorrelation nd pg := by
  obtain ⟨-, h1, h2, h3⟩ := page_ok hs hcs h
  obtain ⟨last, ys, hl, hys, -⟩ := (fit_ok_iff _ _ _ _ _).mp h3
  have hne : nd.edges.length ≠ 0 := by
    intro h0
    rw [List.length_eq_zero_iff] at h0
    rw [h1, h0] at hl
    simp [binCenters] at hl
  have hlen := binCenters_length nd.edges
  refine ⟨⟨by rw [h1, hlen]; omega, by rw [h2, List.length_map, List.length_range, hlen]; omega⟩, fun i a b ha hb => by rw [h1]; exact center_get ha hb, fun i hi => ?_⟩
  have hp : pg.points[i]? = some ((pairs nd i).length, corrcoef (pairs nd i)) := by
    rw [h2, List.getElem?_map, List.getElem?_range (by omega)]
    rfl
  have hv : Varies (pairs nd i) := by
    by_contra hv
    have hn := (corrcoef_eq _).2 hv
    have hm : (pg.points.map Prod.snd)[i]? = some none := by
      rw [List.getElem?_map, hp, Option.map_some, hn]
    rw [hys, List.getElem?_map] at hm
    obtain ⟨y, -, hy⟩ := Option.map_eq_some_iff.mp hm
    exact absurd hy (by simp)
  obtain ⟨e1, e2⟩ := (corrcoef_eq _).1 hv
  exact ⟨hv, e2, by rw [hp, e1]⟩

theorem plot_ok_iff (opt : Optimizer) (cs : Nat) (file : Nat → Bool → Option Node) (size : Nat → Bool → ℝ) (l : List (Nat × Bool)) (pages : List Page) :
    plot opt cs file size l = .ok pages ↔ List.Forall₂ (fun k pg => ∃ nd, file k.1 k.2 = some nd ∧ page opt cs (size k.1 k.2) nd = .ok pg) l pages := by
  induction l generalizing pages with
  | nil => cases pages <;> simp [plot]
  | cons k r ih =>
    obtain ⟨d, b⟩ := k
    cases pages with
    | nil =>
      simp only [plot]
      constructor
      · intro h
        split at h
        · exact absurd h (by simp)
        · split at h
          · exact absurd h (by simp)
          · split at h
            · exact absurd h (by simp)
            · exact absurd (Except.ok.inj h) (by simp)
      · intro h
        cases h
    | cons pg pages =>
      rw [List.forall₂_cons, ← ih]
      simp only [plot]
      constructor
      · intro h
        split at h
        · exact absurd h (by simp)
        · rename_i nd hnd
          split at h
          · exact absurd h (by simp)
          · rename_i p hp
            split at h
            · exact absurd h (by simp)
            · rename_i ps hps
              have := Except.ok.inj h
              injection this with e1 e2
              subst e1 e2
              exact ⟨⟨nd, hnd, hp⟩, hps⟩
      · rintro ⟨⟨nd, hnd, hp⟩, hps⟩

        rw [hnd]
        dsimp only
        rw [hp]
        dsimp only
        rw [hps]

theorem plot_page {opt : Optimizer} {cs : Nat} {file : Nat → Bool → Option Node} {size : Nat → Bool → ℝ} {select : List Nat} {pages : List Page}
    (h : plot opt cs file size (pagesOf select) = .ok pages) {d : Nat} (hd : d ∈ select) (b : Bool) :
    ∃ nd pg, file d b = some nd ∧ page opt cs (size d b) nd = .ok pg ∧ pg ∈ pages := by
  have hall := (plot_ok_iff _ _ _ _ _ _).mp h
  have hm : (d, b) ∈ pagesOf select := List.mem_flatMap.mpr ⟨d, hd, by cases b <;> simp⟩
  generalize pagesOf select = l at hall hm
  clear h
  induction hall with
  | nil => simp at hm
  | cons h1 _ ih =>
    rcases List.mem_cons.mp hm with e | hm
    · subst e
      obtain ⟨nd, h1, h2⟩ := h1
      exact ⟨nd, _, h1, h2, by simp⟩
    · obtain ⟨nd, pg, a1, a2, a3⟩ := ih hm
      exact ⟨nd, pg, a1, a2, by simp [a3]⟩

/-! ### C213 -/

/-- C213: if the plot is made, there are two pages for each selected DUT, columns and rows, in this order. Each page shows for every bin of the distance the
number of pairs of residuals and their correlation coefficient, which is between -1 and 1. -/
theorem C213_points_partial (opt : Optimizer) (cs : Nat) (hcs : 0 < cs) (file : Nat → Bool → Option Node) (hs : ∀ d b nd, file d b = some nd → Stored nd)
    (size : Nat → Bool → ℝ) (select : List Nat) (pages : List Page) (h : plot opt cs file size (pagesOf select) = .ok pages) :
    List.Forall₂ (fun k pg => ∃ nd, file k.1 k.2 = some nd ∧ ShowsCorrelation nd pg) (select.flatMap fun d => [(d, true), (d, false)]) pages := by
  refine ((plot_ok_iff _ _ _ _ _ _).mp h).imp ?_
  rintro k pg ⟨nd, h1, h2⟩
  exact ⟨nd, h1, page_shows (hs _ _ _ h1) hcs h2⟩

/-- C213: the chunk size is of no importance. -/
theorem C213_chunks (opt : Optimizer) (cs cs' : Nat) (hcs : 0 < cs) (hcs' : 0 < cs') (file : Nat → Bool → Option Node)
    (hs : ∀ d b nd, file d b = some nd → Stored nd) (size : Nat → Bool → ℝ) (select : List Nat) :
    plot opt cs file size (pagesOf select) = plot opt cs' file size (pagesOf select) := by
  induction pagesOf select with
  | nil => rfl
  | cons k r ih =>
    obtain ⟨d, b⟩ := k
    simp only [plot, ih]
    cases hf : file d b with
    | none => rfl
    | some nd =>
      dsimp only
      rw [page_eq (hs d b nd hf) hcs, page_eq (hs d b nd hf) hcs']

/-- C213: residuals that depend linearly on each other have the correlation 1 or -1. -/
theorem C213_linear (opt : Optimizer) (cs : Nat) (hcs : 0 < cs) (file : Nat → Bool → Option Node) (hs : ∀ d b nd, file d b = some nd → Stored nd)
    (size : Nat → Bool → ℝ) (select : List Nat) (pages : List Page) (h : plot opt cs file size (pagesOf select) = .ok pages) (d : Nat) (hd : d ∈ select) (b : Bool) (nd : Node)
    (hnd : file d b = some nd) (i : Nat) (hi : i + 1 < nd.edges.length) (s c : ℝ) (hlin : ∀ p ∈ pairs nd i, p.2 = s * p.1 + c) :
    ∃ pg ∈ pages, (0 < s → pg.points[i]? = some ((pairs nd i).length, some 1)) ∧ (s < 0 → pg.points[i]? = some ((pairs nd i).length, some (-1))) := by
  obtain ⟨nd', pg, h1, h2, h3⟩ := plot_page h hd b
  rw [hnd] at h1
  obtain rfl := Option.some.inj h1
  obtain ⟨hv, -, hp⟩ := (page_shows (hs d b nd hnd) hcs h2).point i hi
  have hmean : (((pairs nd i).map Prod.snd).sum : ℝ) = s * ((pairs nd i).map Prod.fst).sum + (pairs nd i).length * c := by
    generalize pairs nd i = l at hlin
    clear hv hp
    induction l with
    | nil => simp
    | cons p l ih =>
      have e := ih fun q hq => hlin q (by simp [hq])
      simp only [List.map_cons, List.sum_cons, List.length_cons]
      rw [e, hlin p (by simp)]
      push_cast
      ring
  have hl : ((pairs nd i).length : ℝ) ≠ 0 := by
    obtain ⟨⟨p, hp, -⟩, -⟩ := hv
    have : (pairs nd i).length ≠ 0 := by
      intro h0
      rw [List.length_eq_zero_iff] at h0
      rw [h0] at hp
      simp at hp
    exact_mod_cast this
  have hdev : ∀ p ∈ pairs nd i, p.2 - ((pairs nd i).map Prod.snd).sum / (pairs nd i).length = s * (p.1 - ((pairs nd i).map Prod.fst).sum / (pairs nd i).length) := by
    intro p hp
    rw [hmean, hlin p hp]
    field_simp
    ring
  have e1 : deviations (pairs nd i) Prod.fst Prod.snd = s * deviations (pairs nd i) Prod.fst Prod.fst := by
    unfold deviations
    rw [← List.sum_map_mul_left]
    congr 1
    apply List.map_congr_left
    intro p hp
    rw [hdev p hp]
    ring
  have e2 : deviations (pairs nd i) Prod.snd Prod.snd = s * s * deviations (pairs nd i) Prod.fst Prod.fst := by
    unfold deviations
    rw [← List.sum_map_mul_left]
    congr 1
    apply List.map_congr_left
    intro p hp
    rw [hdev p hp]
    ring
  have hpos := (deviations_pos_iff (pairs nd i) Prod.fst).mpr hv.1
  have e3 : pearson (pairs nd i) = s / |s| := by
    unfold pearson
    rw [e2, e1]
    have : deviations (pairs nd i) Prod.fst Prod.fst * (s * s * deviations (pairs nd i) Prod.fst Prod.fst) = (s * deviations (pairs nd i) Prod.fst Prod.fst) ^ 2 := by ring
    rw [this, Real.sqrt_sq_eq_abs, abs_mul, abs_of_pos hpos]
    by_cases hs0 : s = 0
    · simp [hs0]
    · field_simp
  refine ⟨pg, h3, fun h0 => ?_, fun h0 => ?_⟩
  · rw [hp, e3, abs_of_pos h0, div_self h0.ne']
  · rw [hp, e3, abs_of_neg h0, div_neg, div_self h0.ne]

/-- C213: what is needed for the page of a DUT and a direction. -/
theorem C213_returns (opt : Optimizer) (cs : Nat) (hcs : 0 < cs) (nd : Node) (hs : Stored nd) (size : ℝ) (hopt : ∀ data start, (opt data start).isSome) :
    (∃ pg, page opt cs size nd = .ok pg) ↔ (∀ i, i + 1 < nd.edges.length → Varies (pairs nd i)) ∧ PixelFits nd size := by
  constructor
  · rintro ⟨pg, h⟩
    have hsh := page_shows hs hcs h
    refine ⟨fun i hi => (hsh.point i hi).1, ?_⟩
    obtain ⟨-, h1, -, h3⟩ := page_ok hs hcs h
    obtain ⟨last, ys, hl, -, b1, b2, b3, -⟩ := (fit_ok_iff _ _ _ _ _).mp h3
    rw [h1, List.getLast?_eq_getElem?, binCenters_length] at hl
    have hlt : nd.edges.length - 1 - 1 < nd.edges.length - 1 := by
      have := (List.getElem?_eq_some_iff.mp hl).1
      rwa [binCenters_length] at this
    have g1 : nd.edges[nd.edges.length - 1 - 1]? = some (nd.edges[nd.edges.length - 1 - 1]'(by omega)) := List.getElem?_eq_getElem _
    have g2 : nd.edges[nd.edges.length - 1 - 1 + 1]? = some (nd.edges[nd.edges.length - 1 - 1 + 1]'(by omega)) := List.getElem?_eq_getElem _
    have := center_get g1 g2
    rw [this] at hl
    have hl := Option.some.inj hl
    refine ⟨_, _, ?_, ?_, by rw [hl]; exact b1, b2, by rw [hl]; exact b3⟩
    · rw [List.getLast?_eq_getElem?, ← g2]
      congr 1
      omega
    · rw [List.getLast?_eq_getElem?, List.length_dropLast, List.getElem?_dropLast, if_pos (by omega), ← g1]
  · rintro ⟨hv, a, b, hb, ha, f1, f2, f3⟩
    rw [List.getLast?_eq_getElem?] at hb
    rw [List.getLast?_eq_getElem?, List.length_dropLast] at ha
    have ha1 : nd.edges.length - 1 - 1 < nd.edges.dropLast.length := (List.getElem?_eq_some_iff.mp ha).1
    rw [List.length_dropLast] at ha1
    rw [List.getElem?_dropLast, if_pos (by omega)] at ha
    have hlast : (binCenters nd.edges).getLast? = some ((a + b) / 2) := by
      rw [List.getLast?_eq_getElem?, binCenters_length]
      refine center_get ha ?_
      rw [← hb]
      congr 1
      omega
    have hne : nd.ref.length ≠ 0 := by
      intro h0
      obtain ⟨⟨p, hp, -⟩, -⟩ := hv 0 (by omega)
      rw [List.length_eq_zero_iff] at h0
      simp [pairs, h0] at hp
    have hys : (((List.range (binCenters nd.edges).length).map fun i => ((pairs nd i).length, corrcoef (pairs nd i))).map Prod.snd) =
        ((List.range (binCenters nd.edges).length).map fun i => pearson (pairs nd i)).map some := by
      rw [List.map_map, List.map_map]
      apply List.map_congr_left
      intro i hi
      have := List.mem_range.mp hi
      rw [binCenters_length] at this
      exact ((corrcoef_eq _).1 (hv i (by omega))).1
    obtain ⟨q, hq⟩ := Option.isSome_iff_exists.mp (hopt (List.zip (binCenters nd.edges) (List.zip ((List.range (binCenters nd.edges).length).map fun i => pearson (pairs nd i))
      (((List.range (binCenters nd.edges).length).map fun i => ((pairs nd i).length, corrcoef (pairs nd i))).map fun p => Real.sqrt p.1))) ⟨1 / 10, 1 / 2, Real.pi / 2, 1, size⟩)
    have := (fit_ok_iff _ _ _ _ _).mpr ⟨_, _, hlast, hys, f1, f2, f3, hq⟩
    rw [page_eq hs hcs, if_neg fun h => hne h.2, this]
    exact ⟨_, rfl⟩

/-- C213 does not hold in general: one bin without varying residuals (for example with less than two pairs) in one direction of one DUT is enough, and there
is no plot for any DUT. -/
theorem C213_undefined_fails (opt : Optimizer) (cs : Nat) (hcs : 0 < cs) (file : Nat → Bool → Option Node) (hs : ∀ d b nd, file d b = some nd → Stored nd)
    (size : Nat → Bool → ℝ) (select : List Nat) (d : Nat) (hd : d ∈ select) (b : Bool) (nd : Node) (hnd : file d b = some nd) (i : Nat) (hi : i + 1 < nd.edges.length)
    (hv : ¬ Varies (pairs nd i)) : ∀ pages, plot opt cs file size (pagesOf select) ≠ .ok pages := by
  intro pages h
  obtain ⟨nd', pg, h1, h2, -⟩ := plot_page h hd b
  rw [hnd] at h1
  obtain rfl := Option.some.inj h1
  exact hv ((page_shows (hs d b nd hnd) hcs h2).point i hi).1

/-- C213 does not hold in general: a pixel larger than the distance of the last bin centre, and there is no plot for any DUT. -/
theorem C213_pixel_fails (opt : Optimizer) (cs : Nat) (hcs : 0 < cs) (file : Nat → Bool → Option Node) (hs : ∀ d b nd, file d b = some nd → Stored nd)
    (size : Nat → Bool → ℝ) (select : List Nat) (d : Nat) (hd : d ∈ select) (b : Bool) (nd : Node) (hnd : file d b = some nd)
    (hv : ∀ e, nd.edges.getLast? = some e → e ≤ size d b) (hasc : nd.edges.Pairwise (· < ·)) : ∀ pages, plot opt cs file size (pagesOf select) ≠ .ok pages := by
  intro pages h
  obtain ⟨nd', pg, h1, h2, -⟩ := plot_page h hd b
  rw [hnd] at h1
  obtain rfl := Option.some.inj h1
  obtain ⟨-, h1, -, h3⟩ := page_ok (hs d b nd hnd) hcs h2
  obtain ⟨last, ys, hl, -, b1, b2, b3, -⟩ := (fit_ok_iff _ _ _ _ _).mp h3
  rw [h1, List.getLast?_eq_getElem?, binCenters_length] at hl
  have hlt : nd.edges.length - 1 - 1 < nd.edges.length - 1 := by
    have := (List.getElem?_eq_some_iff.mp hl).1
    rwa [binCenters_length] at this
  have g1 : nd.edges[nd.edges.length - 1 - 1]? = some (nd.edges[nd.edges.length - 1 - 1]'(by omega)) := List.getElem?_eq_getElem _
  have g2 : nd.edges[nd.edges.length - 1 - 1 + 1]? = some (nd.edges[nd.edges.length - 1 - 1 + 1]'(by omega)) := List.getElem?_eq_getElem _
  have e := center_get g1 g2
  rw [e] at hl
  have hl := Option.some.inj hl
  have hle := hv _ (by rw [List.getLast?_eq_getElem?, ← g2]; congr 1; omega)
  have hasc := List.pairwise_iff_getElem.mp hasc (nd.edges.length - 1 - 1) (nd.edges.length - 1 - 1 + 1) (by omega) (by omega) (by omega)
  linarith

/-- C213 does not hold in general: of two bins the one with more pairs, of which the correlation is better known, is given the larger error in the fit. -/
theorem C213_weights_fail (opt : Optimizer) (cs : Nat) (hcs : 0 < cs) (file : Nat → Bool → Option Node) (hs : ∀ d b nd, file d b = some nd → Stored nd)
    (size : Nat → Bool → ℝ) (select : List Nat) (pages : List Page) (h : plot opt cs file size (pagesOf select) = .ok pages) (d : Nat) (hd : d ∈ select) (b : Bool) (nd : Node)
    (hnd : file d b = some nd) (i j : Nat) (hi : i + 1 < nd.edges.length) (hj : j + 1 < nd.edges.length) (hlt : (pairs nd i).length < (pairs nd j).length) :
    ∃ pg ∈ pages, ∃ data start, opt data start = some pg.param ∧ ∃ (xi yi si xj yj sj : ℝ), data[i]? = some (xi, yi, si) ∧ data[j]? = some (xj, yj, sj) ∧
      yi = pearson (pairs nd i) ∧ yj = pearson (pairs nd j) ∧ si < sj := by
  obtain ⟨nd', pg, h1, h2, h3⟩ := plot_page h hd b
  rw [hnd] at h1
  obtain rfl := Option.some.inj h1
  have hsh := page_shows (hs d b nd hnd) hcs h2
  obtain ⟨-, c1, -, c3⟩ := page_ok (hs d b nd hnd) hcs h2
  obtain ⟨last, ys, -, hys, -, -, -, hopt⟩ := (fit_ok_iff _ _ _ _ _).mp c3
  have key : ∀ k, k + 1 < nd.edges.length → ∃ x, (List.zip pg.centers (List.zip ys (pg.points.map fun p => Real.sqrt p.1)))[k]? =
      some (x, pearson (pairs nd k), Real.sqrt (pairs nd k).length) := by
    intro k hk
    have hp := (hsh.point k hk).2.2
    have hy : ys[k]? = some (pearson (pairs nd k)) := by
      have : (pg.points.map Prod.snd)[k]? = some (some (pearson (pairs nd k))) := by rw [List.getElem?_map, hp]; rfl
      rw [hys, List.getElem?_map] at this
      obtain ⟨y, h1, h2⟩ := Option.map_eq_some_iff.mp this
      rw [h1, Option.some.inj h2]
    have hc : k < pg.centers.length := by
      have := hsh.bins.1
      omega
    refine ⟨pg.centers[k], ?_⟩
    rw [List.getElem?_zip_eq_some, List.getElem?_zip_eq_some]
    refine ⟨List.getElem?_eq_getElem hc, hy, ?_⟩
    rw [List.getElem?_map, hp]
    rfl
  obtain ⟨xi, ei⟩ := key i hi
  obtain ⟨xj, ej⟩ := key j hj
  refine ⟨pg, h3, _, _, hopt, xi, _, _, xj, _, _, ei, ej, rfl, rfl, ?_⟩
  exact Real.sqrt_lt_sqrt (Nat.cast_nonneg _) (by exact_mod_cast hlt)

/-! ### C214 -/

theorem digit_iff {n : Nat} {r0 r1 x : ℝ} (hn : 0 < n) (hr : r0 < r1) (hx : r0 ≤ x) (b : Nat) : digit n r0 r1 x = b ↔ InBin n r0 r1 b x := by
  have hn' : (0 : ℝ) < n := by exact_mod_cast hn
  have hd : 0 < r1 - r0 := by linarith
  have hq : (0 : ℝ) < (n : ℝ) / (r1 - r0) := by positivity
  have h0 : 0 ≤ (n : ℝ) / (r1 - r0) * (x - r0) := mul_nonneg hq.le (by linarith)
  unfold digit Corr.toInt InBin
  rw [if_pos h0, Int.floor_eq_iff]
  have hw : (r1 - r0) / n = 1 / ((n : ℝ) / (r1 - r0)) := by rw [one_div_div]
  rw [hw]
  generalize (n : ℝ) / (r1 - r0) = q at *
  have c1 : r0 + (b : ℝ) * (1 / q) ≤ x ↔ (b : ℝ) ≤ q * (x - r0) := by
    rw [← le_sub_iff_add_le', mul_one_div, div_le_iff₀ hq, mul_comm]
  have c2 : x < r0 + ((b : ℝ) + 1) * (1 / q) ↔ q * (x - r0) < b + 1 := by
    rw [← sub_lt_iff_lt_add', mul_one_div, lt_div_iff₀ hq, mul_comm]
  rw [c1, c2]
  simp

/-- C214: for values inside of the range, the result has one element for each bin: the function applied to the values of this bin, in their order. -/
theorem C214_groups_partial {A B : Type} (x : List ℝ) (vals : List A) (func : List A → B) (n : Nat) (hn : 0 < n) (r0 r1 : ℝ) (hr : r0 < r1) (hlen : x.length = vals.length)
    (hx : ∀ v ∈ x, r0 ≤ v ∧ v < r1) :
    binnedStatistic x vals func n r0 r1 = .ok ((List.range n).map fun b => func (valuesIn n r0 r1 b x vals)) := by
  have hin : ∀ v ∈ x, 0 ≤ digit n r0 r1 v ∧ digit n r0 r1 v < n := by
    intro v hv
    obtain ⟨h1, h2⟩ := hx v hv
    have hn' : (0 : ℝ) < n := by exact_mod_cast hn
    have hd : 0 < r1 - r0 := by linarith
    have hq : (0 : ℝ) < (n : ℝ) / (r1 - r0) := by positivity
    have h0 : 0 ≤ (n : ℝ) / (r1 - r0) * (v - r0) := mul_nonneg hq.le (by linarith)
    unfold digit Corr.toInt
    rw [if_pos h0]
    refine ⟨Int.floor_nonneg.mpr h0, Int.floor_lt.mpr ?_⟩
    have : (n : ℝ) / (r1 - r0) * (v - r0) < (n : ℝ) / (r1 - r0) * (r1 - r0) := mul_lt_mul_of_pos_left (by linarith) hq
    rw [div_mul_cancel₀ _ hd.ne'] at this
    exact_mod_cast this
  unfold binnedStatistic
  rw [if_neg (by intro h; linarith), if_neg (by simp [hlen]), if_neg]
  · congr 1
    apply List.map_congr_left
    intro b _
    unfold valuesIn
    congr 2
    apply List.filter_congr
    intro p hp
    exact decide_eq_decide.mpr (digit_iff hn hr (hx _ (List.of_mem_zip hp).1).1 b)
  · rw [List.any_eq_true]
    rintro ⟨v, hv, h⟩
    have := hin v hv
    simp only [decide_eq_true_eq] at h
    omega

/-- C214 does not hold at the upper end of the range, which belongs to the last bin of `scipy.stats.binned_statistic`: there is an exception. -/
theorem C214_upper_end_fails {A B : Type} (x : List ℝ) (vals : List A) (func : List A → B) (n : Nat) (r0 r1 : ℝ) (hr : r0 < r1) (hlen : x.length = vals.length)
    (h : ∃ v ∈ x, r1 ≤ v) : binnedStatistic x vals func n r0 r1 = .error .outside := by
  obtain ⟨v, hv, hle⟩ := h
  unfold binnedStatistic
  rw [if_neg (by intro h; linarith), if_neg (by simp [hlen]), if_pos]
  rw [List.any_eq_true]
  refine ⟨v, hv, decide_eq_true (.inr ?_)⟩
  have hd : 0 < r1 - r0 := by linarith
  have hq : (0 : ℝ) ≤ (n : ℝ) / (r1 - r0) := by positivity
  have h1 : (n : ℝ) / (r1 - r0) * (r1 - r0) ≤ (n : ℝ) / (r1 - r0) * (v - r0) := mul_le_mul_of_nonneg_left (by linarith) hq
  rw [div_mul_cancel₀ _ hd.ne'] at h1
  unfold digit Corr.toInt
  rw [if_pos ((Nat.cast_nonneg n).trans h1)]
  exact Int.le_floor.mpr (by exact_mod_cast h1)

/-- C214 does not hold below the range: values up to one bin size below the range, which `scipy.stats.binned_statistic` does not use, are in the first bin. -/
theorem C214_below_fails {A B : Type} (a : A) (func : List A → B) (n : Nat) (hn : 0 < n) (r0 r1 v : ℝ) (hr : r0 < r1) (h1 : r0 - (r1 - r0) / n < v) (h2 : v < r0) :
    ∃ out, binnedStatistic [v] [a] func n r0 r1 = .ok out ∧ out[0]? = some (func [a]) := by
  have hn' : (0 : ℝ) < n := by exact_mod_cast hn
  have hd : 0 < r1 - r0 := by linarith
  have hq : (0 : ℝ) < (n : ℝ) / (r1 - r0) := by positivity
  have hneg : (n : ℝ) / (r1 - r0) * (v - r0) < 0 := mul_neg_of_pos_of_neg hq (by linarith)
  have hgt : -1 < (n : ℝ) / (r1 - r0) * (v - r0) := by
    have : (n : ℝ) / (r1 - r0) * (-((r1 - r0) / n)) < (n : ℝ) / (r1 - r0) * (v - r0) := mul_lt_mul_of_pos_left (by linarith) hq
    have e : (n : ℝ) / (r1 - r0) * (-((r1 - r0) / n)) = -1 := by
      have := hd.ne'
      have := hn'.ne'
      field_simp
    linarith
  have hdig : digit n r0 r1 v = 0 := by
    unfold digit Corr.toInt
    rw [if_neg (by linarith), Int.ceil_eq_zero_iff]
    exact ⟨hgt, hneg.le⟩
  refine ⟨(List.range n).map fun b : Nat => func (((List.zip [v] [a]).filter fun p => decide (digit n r0 r1 p.1 = b)).map Prod.snd), ?_, ?_⟩
  · unfold binnedStatistic
    rw [if_neg (by intro h; linarith), if_neg (by simp), if_neg]
    simp [hdig, hn]
    omega
  · rw [List.getElem?_map, List.getElem?_range hn]
    simp [hdig]

/-! ### C215 -/

/-- C215 does not hold: for every selection with at least one DUT, whatever it is, and also for the default selection, there is an exception. If the alignment
can be read, a result of a previous call has been deleted before that. -/
theorem C215_never_returns (opt : Optimizer) (cs : Nat) (pre lim plotIt : Bool) (nPlot : Nat) (select : Option (List Selected)) (hsel : select ≠ some []) (fs : Files) :
    (∃ e, (calculate opt cs pre lim plotIt nPlot select fs).1 = .error e) ∧
      (fs.preAlignment = true → fs.alignment = true → ∀ d b, ∃ file, (calculate opt cs pre lim plotIt nPlot select fs).2.output = some file ∧ file d b = none) := by
  unfold calculate
  split
  · rename_i h
    exact ⟨⟨_, rfl⟩, fun h1 => by rw [h1] at h; simp at h⟩
  split
  · rename_i h
    exact ⟨⟨_, rfl⟩, fun _ h1 => by rw [h1] at h; simp at h⟩
  split
  · rename_i h
    exact ⟨⟨_, rfl⟩, fun h1 => by rw [h1] at h; simp at h⟩
  match select, hsel with
  | none, _ => exact ⟨⟨_, rfl⟩, fun _ _ d b => ⟨_, rfl, rfl⟩⟩
  | some (s :: r), _ => exact ⟨⟨_, rfl⟩, fun _ _ d b => ⟨_, rfl, rfl⟩⟩
  | some [], h => exact absurd rfl h

/-- C215: which exception it is, if the alignment can be read: a TypeError for the default selection and for a DUT, for a number the missing tracks, else
an IndexError if `plot_n_pixels` is empty, else the missing attribute. -/
theorem C215_exception (opt : Optimizer) (cs : Nat) (pre lim plotIt : Bool) (nPlot : Nat) (fs : Files) (h1 : fs.preAlignment = true) (h2 : fs.alignment = true) :
    (calculate opt cs pre lim plotIt nPlot none fs).1 = .error .type ∧
    (∀ p q r, (calculate opt cs pre lim plotIt nPlot (some (.dut p q :: r)) fs).1 = .error .type) ∧
    ∀ n r, (fs.tracks n = false → (calculate opt cs pre lim plotIt nPlot (some (.number n :: r)) fs).1 = .error .noNode) ∧
      (fs.tracks n = true → nPlot = 0 → (calculate opt cs pre lim plotIt nPlot (some (.number n :: r)) fs).1 = .error .index) ∧
      (fs.tracks n = true → 0 < nPlot → (calculate opt cs pre lim plotIt nPlot (some (.number n :: r)) fs).1 = .error .attribute) := by
  have hc : ∀ sel, calculate opt cs pre lim plotIt nPlot sel fs = _ := fun sel => by
    unfold calculate
    rw [if_neg (by simp [h1]), if_neg (by simp [h2]), if_neg (by simp [h1])]
  refine ⟨by rw [hc], fun p q r => by rw [hc]; rfl, fun n r => ⟨fun h => ?_, fun h h0 => ?_, fun h h0 => ?_⟩⟩
  · rw [hc]; simp only [dutStep, h, if_true]
  · rw [hc]; simp [dutStep, h, h0]
  · rw [hc]; simp only [dutStep, h, Bool.true_eq_false, if_false, if_neg (show ¬ nPlot ≤ 0 by omega)]

/-- C215: only the empty selection gives a result, an empty file. -/
theorem C215_empty_partial (opt : Optimizer) (cs : Nat) (pre lim plotIt : Bool) (nPlot : Nat) (fs : Files) (h1 : fs.preAlignment = true) (h2 : fs.alignment = true) :
    (calculate opt cs pre lim plotIt nPlot (some []) fs).1 = .ok () ∧
      ∃ file, (calculate opt cs pre lim plotIt nPlot (some []) fs).2.output = some file ∧ ∀ d b, file d b = none := by
  unfold calculate
  rw [if_neg (by simp [h1]), if_neg (by simp [h2]), if_neg (by simp [h1])]
  cases plotIt
  · exact ⟨rfl, _, rfl, fun _ _ => rfl⟩
  · exact ⟨rfl, _, rfl, fun _ _ => rfl⟩

/-! ### Examples -/

/-- Two bins of 10 um, three reference tracks; the second bin has two pairs. -/
noncomputable def corrNode : Node := ⟨[0, 10, 20], [[some 1, some 3], [some 2, none], [some 4, some 1]], [1, 2, 3]⟩

theorem exNode_stored : Stored corrNode := ⟨rfl, by simp [corrNode]⟩

theorem exNode_pairs : pairs corrNode 0 = [(1, 1), (2, 2), (3, 4)] ∧ pairs corrNode 1 = [(1, 3), (3, 1)] := by
  constructor <;> simp [pairs, corrNode]

theorem exNode_varies (i : Nat) (hi : i + 1 < corrNode.edges.length) : Varies (pairs corrNode i) := by
  have hi : i + 1 < 3 := hi
  rcases (by omega : i = 0 ∨ i = 1) with rfl | rfl
  · rw [exNode_pairs.1]
    refine ⟨⟨(1, 1), by simp, (2, 2), by simp, by norm_num⟩, (1, 1), by simp, (2, 2), by simp, by norm_num⟩
  · rw [exNode_pairs.2]
    refine ⟨⟨(1, 3), by simp, (3, 1), by simp, by norm_num⟩, (1, 3), by simp, (3, 1), by simp, by norm_num⟩

/-- The page is made, whatever the chunk size. -/
example (opt : Optimizer) (hopt : ∀ data start, (opt data start).isSome) (cs : Nat) (hcs : 0 < cs) : ∃ pg, page opt cs 10 corrNode = .ok pg :=
  (C213_returns opt cs hcs corrNode exNode_stored 10 hopt).mpr ⟨exNode_varies, 10, 20, rfl, rfl, by norm_num, by norm_num, by norm_num⟩

/-- The second bin has the correlation -1. -/
example (opt : Optimizer) (hopt : ∀ data start, (opt data start).isSome) :
    ∃ pages, plot opt 2 (fun _ _ => some corrNode) (fun _ _ => 10) (pagesOf [0]) = .ok pages ∧ ∃ pg ∈ pages, pg.points[1]? = some (2, some (-1 : ℝ)) := by
  obtain ⟨pg, hpg⟩ := (C213_returns opt 2 (by norm_num) corrNode exNode_stored 10 hopt).mpr ⟨exNode_varies, 10, 20, rfl, rfl, by norm_num, by norm_num, by norm_num⟩
  have h : plot opt 2 (fun _ _ => some corrNode) (fun _ _ => 10) (pagesOf [0]) = .ok [pg, pg] :=
    (plot_ok_iff _ _ _ _ _ _).mpr (.cons ⟨corrNode, rfl, hpg⟩ (.cons ⟨corrNode, rfl, hpg⟩ .nil))
  obtain ⟨pg', hm, -, hneg⟩ := C213_linear opt 2 (by norm_num) (fun _ _ => some corrNode) (fun _ _ nd e => by rw [← Option.some.inj e]; exact exNode_stored) (fun _ _ => 10) [0] _ h 0 (by simp) true
    corrNode rfl 1 (by simp [corrNode]) (-1) 4 (by
      rw [exNode_pairs.2]
      intro p hp
      simp only [List.mem_cons, List.not_mem_nil, or_false] at hp
      rcases hp with rfl | rfl <;> norm_num)
  refine ⟨_, h, pg', hm, ?_⟩
  have := hneg (by norm_num)
  rw [exNode_pairs.2] at this
  exact this

/-- Three values in two bins. -/
example : ∃ out, binnedStatistic [1, 6, 2] [(10 : ℕ), 20, 30] List.sum 2 0 10 = .ok out ∧ out = [40, 20] := by
  refine ⟨_, C214_groups_partial [1, 6, 2] [(10 : ℕ), 20, 30] List.sum 2 (by norm_num) 0 10 (by norm_num) rfl (by
    intro v hv
    simp only [List.mem_cons, List.not_mem_nil, or_false] at hv
    rcases hv with rfl | rfl | rfl <;> norm_num), ?_⟩
  simp [valuesIn, InBin, List.range_succ, List.filter_cons]
  norm_num

end BTA.Props
