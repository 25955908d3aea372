import Verif.Model.PrealignChain
import Verif.Props.PrealignRobust
import Verif.Props.Correlate
/-
C211: from the hits to the pre-alignment.
-/
namespace BTA.Props
open BTA.Prealign BTA.Prealign.Spec BTA.Dut BTA.Geo BTA.Corr BTA.Corr.Spec

/-! ### Helper lemmas -/

theorem arrayOf_length (n m : Nat) (h : Nat → Nat → ℝ) : (arrayOf n m h).length = n := by simp [arrayOf]

theorem arrayOf_get (n m : Nat) (h : Nat → Nat → ℝ) (i : Nat) (hi : i < (arrayOf n m h).length) :
    (arrayOf n m h)[i] = (List.range m).map fun j => h i j := by simp [arrayOf]

theorem arrayOf_regular (res : ℝ) (hr : 0 < res) (a b : Axis) (h : Nat → Nat → ℝ) :
    Regular ⟨res, extentOf a res, extentOf b res, arrayOf b.bins a.bins h⟩ := by
  refine ⟨hr, fun row hrow => ?_, ?_⟩
  · obtain ⟨i, hi, rfl⟩ := List.mem_map.mp hrow
    have h0 : 0 < b.bins := by
      have := List.mem_range.mp hi
      omega
    simp only [Node.refBins, arrayOf, List.length_map, List.length_range]
    obtain ⟨n, hn⟩ : ∃ n, b.bins = n + 1 := ⟨b.bins - 1, by omega⟩
    rw [hn, List.range_succ_eq_map]
    simp
  · simp [extentOf, arrayOf_length]

/-- The node of an axis of which less than a quarter of the bins have no correlation. -/
theorem node_correlated {P Q : Plane} {S T : Table} {k : Fin 3} {res s pos : ℝ} (hr : 0 < res) {ra da : Axis} (hd : SmallestAxis Q k res da)
    (hc : 4 * Set.ncard {i : Nat | i < da.bins ∧ ¬ Coincides P Q S T k res ra da s pos i} + 2 ≤ da.bins)
    (h : Nat → Nat → Nat) (hh : ∀ i j, h i j = pairsInBins P Q S T k ra.start da.start res i j) :
    MostlyCorrelated ⟨res, extentOf ra res, extentOf da res, arrayOf da.bins ra.bins fun i j => (h i j : ℝ)⟩ s pos := by
  apply C210_quarter
  simp only [arrayOf_length]
  refine le_trans ?_ hc
  have hsub : {i : Nat | i < da.bins ∧ ¬ Shows ⟨res, extentOf ra res, extentOf da res, arrayOf da.bins ra.bins fun i j => (h i j : ℝ)⟩ s pos i} ⊆
      {i : Nat | i < da.bins ∧ ¬ Coincides P Q S T k res ra da s pos i} := by
    rintro i ⟨hi, hno⟩
    refine ⟨hi, fun hco => hno ?_⟩
    obtain ⟨j, hj, hpos, hmax⟩ := hco
    refine ⟨by simpa [arrayOf_length] using hi, j, ?_, ?_⟩
    · rw [arrayOf_get]
      refine ⟨by simpa using hj, fun a ha => ?_, fun a ha => ?_⟩
      · simp only [List.getElem_map, List.getElem_range, List.length_map, List.length_range] at ha ⊢
        by_cases e : a = j
        · rw [e]
        · have := hmax a ha e
          rw [← hh, ← hh] at this
          exact_mod_cast this.le
      · simp only [List.getElem_map, List.getElem_range]
        have := hmax a (ha.trans hj) (Nat.ne_of_lt ha)
        rw [← hh, ← hh] at this
        exact_mod_cast this
    · have e : dutMiddle ⟨res, extentOf ra res, extentOf da res, arrayOf da.bins ra.bins fun i j => (h i j : ℝ)⟩ = toGlobal Q (0, 0) k := by
        rw [← hd.centre]
        simp only [dutMiddle, extentOf]
        ring
      rw [e]
      exact hpos
  have := Set.ncard_le_ncard hsub ((Set.finite_Iio da.bins).subset fun i h => h.1)
  unfold bad
  simp only [arrayOf_length]
  omega

/-- The nodes of a pair of DUTs. -/
theorem fileOf_some {res : ℝ × ℝ} {reduce : Bool} {out : List Entry} {ref i : Nat} {x : Bool} {nd : Node}
    (h : fileOf res reduce out ref i x = some nd) : ∃ e ∈ out, e.ref = ref ∧ e.dut = i ∧
      (∀ y, fileOf res reduce out ref i y = some (nodeOf res reduce e y)) := by
  unfold fileOf at h
  obtain ⟨e, he, -⟩ := Option.map_eq_some_iff.mp h
  have h1 := List.find?_some he
  simp only [Bool.and_eq_true, beq_iff_eq] at h1
  refine ⟨e, List.mem_of_find?_eq_some he, h1.1, h1.2, fun y => ?_⟩
  unfold fileOf
  rw [he]
  rfl

theorem getDut_plane {tel : List PDut} {i : Nat} {d : PDut} (h : tel[i]? = some d) : getDut (tel.map planeOf) i = some (planeOf d) := by
  unfold getDut
  simp [h]

/-- The correlation of the nodes of a DUT, from the correlation of the hits. -/
theorem nodes_correlated {tel : List PDut} {files : List Table} {res : ℝ × ℝ} {select refs : Option (List Int)} {cs : Nat} {lead : Leading}
    {o : Bool} {out : List Entry} (hr : 0 < res.1 ∧ 0 < res.2) (hcs : 0 < cs) (hp : ∀ p ∈ tel, Corr.Spec.Proper (planeOf p))
    (hs : ∀ t ∈ files, BTA.Spec.SortedBy Row.ev t.rows)
    (hon : ∀ i p t, getDut (tel.map planeOf) i = some p → getFile (selectDuts (tel.map planeOf) select) files i = some t → AllOnSensor p t)
    (h : correlate (tel.map planeOf) files res select refs cs lead = (o, .ok out)) {ref i : Nat} {p d : PDut} (hpr : tel[ref]? = some p)
    (hd : tel[i]? = some d) {S T : Table} (hS : getFile (selectDuts (tel.map planeOf) select) files ref = some S)
    (hT : getFile (selectDuts (tel.map planeOf) select) files i = some T) {e : Entry} (he : e ∈ out) (er : e.ref = ref) (ed : e.dut = i)
    {sx posx sy posy : ℝ} (hx : HitsCorrelated (planeOf p) (planeOf d) S T 0 res.1 sx posx)
    (hy : HitsCorrelated (planeOf p) (planeOf d) S T 1 res.2 sy posy) :
    Regular (nodeOf res false e true) ∧ Regular (nodeOf res false e false) ∧ MostlyCorrelated (nodeOf res false e true) sx posx ∧
      MostlyCorrelated (nodeOf res false e false) sy posy := by
  have hp' : ∀ q ∈ tel.map planeOf, Corr.Spec.Proper q := by
    intro q hq
    obtain ⟨a, ha, rfl⟩ := List.mem_map.mp hq
    exact hp a ha
  obtain ⟨P, Q, S', T', h1, h2, h3, h4, hcount⟩ := C86_counts _ files res select refs cs lead o out hr hcs hp' hs hon h e he
  obtain ⟨P', Q', h1', h2', a1, a2, a3, a4⟩ := C87_axes _ files res select refs cs lead o out hr hcs hp' hs h e he
  rw [er, getDut_plane hpr] at h1 h1'
  rw [ed, getDut_plane hd] at h2 h2'
  rw [er, hS] at h3
  rw [ed, hT] at h4
  obtain rfl := Option.some.inj h1
  obtain rfl := Option.some.inj h1'
  obtain rfl := Option.some.inj h2
  obtain rfl := Option.some.inj h2'
  obtain rfl := Option.some.inj h3
  obtain rfl := Option.some.inj h4
  refine ⟨arrayOf_regular res.1 hr.1 e.ra.x e.da.x _, arrayOf_regular res.2 hr.2 e.ra.y e.da.y _,
    node_correlated hr.1 a3 (hx _ _ a1 a3) e.x fun i j => (hcount i j).1, node_correlated hr.2 a4 (hy _ _ a2 a4) e.y fun i j => (hcount i j).2⟩

/-! ### Sensors that are not rotated, with pixels of the size of a bin -/

theorem upright_global {d : PDut} (h : Upright d) (q : ℝ × ℝ) :
    toGlobal (planeOf d) q 0 = q.1 + d.align.x ∧ toGlobal (planeOf d) q 1 = q.2 + d.align.y := by
  obtain ⟨h1, h2, h3⟩ := h
  have hR : rotationMatrix (planeOf d).align.alpha (planeOf d).align.beta (planeOf d).align.gamma = 1 := by
    show rotationMatrix d.align.alpha d.align.beta d.align.gamma = 1
    rw [h1, h2, h3]
    exact demo_rotation
  rw [toGlobal_coord, toGlobal_coord, hR]
  simp [planeOf]

/-- The bins of an axis are the pixels. -/
theorem pixel_axis {P : Plane} {k : Fin 3} {res x : ℝ} (hr : 0 < res) {n : Nat} {g : ℝ × ℝ → ℝ} (hg : ∀ q, toGlobal P q k = g q + x)
    (hb : ∀ q, OnSensor P q → |g q| ≤ n * res / 2) (h0 : g (0, 0) = 0) (hex : ∃ q q', OnSensor P q ∧ OnSensor P q' ∧ g q - g q' = n * res)
    {a : Axis} (ha : SmallestAxis P k res a) : a.bins = n ∧ a.start = x - n * res / 2 := by
  have h1 : a.bins ≤ n := ha.smallest n fun q q' hq hq' => by
    have e1 := abs_le.mp (hb q hq)
    have e2 := abs_le.mp (hb q' hq')
    rw [hg, hg]
    linarith
  have h2 : n ≤ a.bins := by
    obtain ⟨q, q', hq, hq', e⟩ := hex
    have c1 := (ha.covers q hq).2
    have c2 := (ha.covers q' hq').1
    rw [hg] at c1 c2
    have : (n : ℝ) * res ≤ a.bins * res := by linarith
    exact_mod_cast le_of_mul_le_mul_right this hr
  have h3 : a.bins = n := le_antisymm h1 h2
  refine ⟨h3, ?_⟩
  have := ha.centre
  rw [h3, hg, h0] at this
  linarith

theorem upright_axis_x {d : PDut} (h : Upright d) {res : ℝ} (hr : 0 < res) (hc : d.pixels.columnSize = res) (hrow : 0 ≤ d.pixels.rowSize) {a : Axis}
    (ha : SmallestAxis (planeOf d) 0 res a) : a.bins = d.pixels.nColumns ∧ a.start = d.align.x - d.pixels.nColumns * res / 2 := by
  refine pixel_axis hr (g := Prod.fst) (fun q => (upright_global h q).1) (fun q hq => ?_) rfl
    ⟨(d.pixels.nColumns * res / 2, 0), (-(d.pixels.nColumns * res / 2), 0), ⟨?_, ?_⟩, ⟨?_, ?_⟩, ?_⟩ ha
  · have := hq.1
    simp only [planeOf, hc] at this
    exact this
  · simp only [planeOf, hc]
    rw [abs_of_nonneg (by positivity)]
  · simp only [planeOf, abs_zero]
    positivity
  · simp only [planeOf, hc, abs_neg]
    rw [abs_of_nonneg (by positivity)]
  · simp only [planeOf, abs_zero]
    positivity
  · show _ - _ = _
    ring

theorem upright_axis_y {d : PDut} (h : Upright d) {res : ℝ} (hr : 0 < res) (hc : d.pixels.rowSize = res) (hcol : 0 ≤ d.pixels.columnSize) {a : Axis}
    (ha : SmallestAxis (planeOf d) 1 res a) : a.bins = d.pixels.nRows ∧ a.start = d.align.y - d.pixels.nRows * res / 2 := by
  refine pixel_axis hr (g := Prod.snd) (fun q => (upright_global h q).2) (fun q hq => ?_) rfl
    ⟨(0, d.pixels.nRows * res / 2), (0, -(d.pixels.nRows * res / 2)), ⟨?_, ?_⟩, ⟨?_, ?_⟩, ?_⟩ ha
  · have := hq.2
    simp only [planeOf, hc] at this
    exact this
  · simp only [planeOf, abs_zero]
    positivity
  · simp only [planeOf, hc]
    rw [abs_of_nonneg (by positivity)]
  · simp only [planeOf, abs_zero]
    positivity
  · simp only [planeOf, hc, abs_neg]
    rw [abs_of_nonneg (by positivity)]
  · show _ - _ = _
    ring

theorem bin_pixel {res x f : ℝ} (hr : 0 < res) (n i : Nat) :
    InBin (x - n * res / 2) res (res * (f - (n + 1) / 2) + x) i ↔ ((i + 1 : Nat) : ℝ) - 1 / 2 ≤ f ∧ f < ((i + 1 : Nat) : ℝ) + 1 / 2 := by
  have e : res * (f - (n + 1) / 2) + x = x - n * res / 2 + (f - 1 / 2) * res := by ring
  unfold InBin
  rw [e]
  push_cast
  constructor
  · rintro ⟨h1, h2⟩
    have h1' : (i : ℝ) * res ≤ (f - 1 / 2) * res := by linarith
    have h2' : (f - 1 / 2) * res < ((i : ℝ) + 1) * res := by linarith
    have h1 := le_of_mul_le_mul_right h1' hr
    have h2 := lt_of_mul_lt_mul_right h2' hr.le
    constructor <;> linarith
  · rintro ⟨h1, h2⟩
    have h1' : (i : ℝ) * res ≤ (f - 1 / 2) * res := mul_le_mul_of_nonneg_right (by linarith) hr.le
    have h2' : (f - 1 / 2) * res < ((i : ℝ) + 1) * res := mul_lt_mul_of_pos_right (by linarith) hr
    constructor <;> linarith

theorem upright_pos {d : PDut} (h : Upright d) {res : ℝ × ℝ} (h1 : d.pixels.columnSize = res.1) (h2 : d.pixels.rowSize = res.2) (r : Row) :
    globalPos (planeOf d) false r 0 = res.1 * (r.coord.1 - (d.pixels.nColumns + 1) / 2) + d.align.x ∧
    globalPos (planeOf d) false r 1 = res.2 * (r.coord.2 - (d.pixels.nRows + 1) / 2) + d.align.y := by
  unfold globalPos
  rw [(upright_global h _).1, (upright_global h _).2]
  simp [localPos, planeOf, h1, h2]

/-- The files of all DUTs. -/
theorem getFile_all {n : Nat} {files : List Table} (hl : files.length = n) (i : Nat) :
    getFile ((List.range n).map Int.ofNat) files i = files[i]? := by
  have key : ∀ (files : List Table) (a i : Nat), a ≤ i → (((List.range' a files.length).map Int.ofNat).zip files).lookup (i : Int) = files[i - a]? := by
    intro files
    induction files with
    | nil => intro a i _; simp
    | cons t ts ih =>
      intro a i hi
      rw [List.length_cons, List.range'_succ, List.map_cons, List.zip_cons_cons, List.lookup_cons]
      by_cases e : i = a
      · subst e
        simp
      · have : ((i : Int) == Int.ofNat a) = false := by
          rw [beq_eq_false_iff_ne]
          intro h
          exact e (Int.ofNat.inj h)
        rw [this]
        have h1 : i - a = (i - (a + 1)) + 1 := by omega
        rw [h1, List.getElem?_cons_succ]
        exact ih (a + 1) i (by omega)
  unfold getFile
  rw [← hl, List.range_eq_range']
  simpa using key files 0 i (Nat.zero_le _)

theorem fit_limit {env : Env} {nd : Node} (hreg : Regular nd) {ps : ℝ} {f : Fit} (h : fitAxis env nd ps = .ok f) :
    ∃ k < nd.data.length, f.limit.1 ≤ dutCentre nd k ∧ dutCentre nd k ≤ f.limit.2 := by
  obtain ⟨l, -, -, -, hlim⟩ := fitAxis_ok h
  unfold posLimit at hlim
  split at hlim
  · exact absurd hlim (by simp)
  split at hlim
  · exact absurd hlim (by simp)
  rename_i lim hm
  obtain rfl := Except.ok.inj hlim
  obtain ⟨m1, -, m3⟩ := minMax_some hm
  have hmem := (List.mem_filter.mp m1).1
  obtain ⟨k, hk, e⟩ := List.getElem_of_mem hmem
  rw [dutPos_get hreg] at e
  rw [dutPos_length] at hk
  rw [← e] at m1
  exact ⟨k, hk, m3 _ m1⟩

/-- The arrays of a pair of DUTs that are not rotated, with bins of the size of a pixel. -/
structure PixelEntry (lead : Leading) (res : ℝ × ℝ) (p d : PDut) (S T : Table) (e : Entry) : Prop where
  rx : e.ra.x = ⟨p.align.x - p.pixels.nColumns * res.1 / 2, p.pixels.nColumns⟩
  ry : e.ra.y = ⟨p.align.y - p.pixels.nRows * res.2 / 2, p.pixels.nRows⟩
  dx : e.da.x = ⟨d.align.x - d.pixels.nColumns * res.1 / 2, d.pixels.nColumns⟩
  dy : e.da.y = ⟨d.align.y - d.pixels.nRows * res.2 / 2, d.pixels.nRows⟩
  x : ∀ i j, e.x i j = pairsInPixels S T (fun r => r.coord.1) (i + 1) (j + 1)
  y : ∀ i j, e.y i j = pairsInPixels S T (fun r => r.coord.2) (i + 1) (j + 1)
  xr : e.xReduced = reduced lead d.pixels.nColumns p.pixels.nColumns e.x
  yr : e.yReduced = reduced lead d.pixels.nRows p.pixels.nRows e.y

/-- The node of an axis with bins of the size of a pixel. -/
theorem axis_correlated (res : ℝ) (n m : Nat) (xp xq s K : ℝ) (h : Nat → Nat → ℝ)
    (hc : 4 * Set.ncard {c : Nat | 1 ≤ c ∧ c ≤ m ∧ ¬ ∃ c', 1 ≤ c' ∧ c' ≤ n ∧ (c' : ℝ) = s * c + K ∧
      ∀ c'', 1 ≤ c'' → c'' ≤ n → c'' ≠ c' → h (c - 1) (c'' - 1) < h (c - 1) (c' - 1)} + 2 ≤ m) :
    MostlyCorrelated ⟨res, extentOf ⟨xp - n * res / 2, n⟩ res, extentOf ⟨xq - m * res / 2, m⟩ res, arrayOf m n h⟩ s
      (res * (K + s * (m + 1) / 2 - (n + 1) / 2) + xp) := by
  apply C210_quarter
  unfold bad
  simp only [arrayOf_length]
  have hle : Set.ncard {i : Nat | i < m ∧ ¬ Shows ⟨res, extentOf ⟨xp - n * res / 2, n⟩ res, extentOf ⟨xq - m * res / 2, m⟩ res, arrayOf m n h⟩ s
      (res * (K + s * (m + 1) / 2 - (n + 1) / 2) + xp) i} ≤ Set.ncard {c : Nat | 1 ≤ c ∧ c ≤ m ∧ ¬ ∃ c', 1 ≤ c' ∧ c' ≤ n ∧ (c' : ℝ) = s * c + K ∧
      ∀ c'', 1 ≤ c'' → c'' ≤ n → c'' ≠ c' → h (c - 1) (c'' - 1) < h (c - 1) (c' - 1)} := by
    refine Set.ncard_le_ncard_of_injOn (fun i => i + 1) ?_ (fun a _ b _ e => Nat.succ.inj e) ((Set.finite_Iic m).subset fun c h => h.2.1)
    rintro i ⟨hi, hno⟩
    refine ⟨by omega, hi, fun hsee => hno ?_⟩
    obtain ⟨c', h1, h2, h3, h4⟩ := hsee
    refine ⟨by simpa [arrayOf_length] using hi, c' - 1, ?_, ?_⟩
    · rw [arrayOf_get]
      refine ⟨by simp only [List.length_map, List.length_range]; omega, fun a ha => ?_, fun a ha => ?_⟩
      · simp only [List.getElem_map, List.getElem_range, List.length_map, List.length_range] at ha ⊢
        by_cases e : a = c' - 1
        · rw [e]
        · have := h4 (a + 1) (by omega) (by omega) (by omega)
          simpa using this.le
      · simp only [List.getElem_map, List.getElem_range]
        have := h4 (a + 1) (by omega) (by omega) (by omega)
        simpa using this
    · simp only [refCentre, dutCentre, dutMiddle, extentOf]
      rw [Nat.cast_sub h1, h3]
      push_cast
      ring
  omega

/-- The chain, from the correlation of the arrays. -/
theorem chain_pixels (env : Env) (hsort : Sorts env) (hdens : ∀ xs x, 0 < env.density xs x) (tel : List PDut) (files : List Table) (res : ℝ × ℝ) (cs : Nat)
    (lead : Leading) (reduce : Bool) (hr : 0 < res.1 ∧ 0 < res.2)
    (htel : ∀ d ∈ tel, Upright d ∧ d.pixels.columnSize = res.1 ∧ d.pixels.rowSize = res.2 ∧ 3 ≤ d.pixels.nColumns ∧ 3 ≤ d.pixels.nRows)
    (hlen : files.length = tel.length)
    (hfiles : ∀ t ∈ files, t.positions = false ∧ Spec.SortedBy Row.ev t.rows ∧ ∀ v, Spec.multiplicity Row.ev t.rows v < cs)
    (hpix : ∀ (i : Nat) (d : PDut) (t : Table), tel[i]? = some d → files[i]? = some t → ∀ r ∈ t.rows, (1 ≤ r.coord.1 ∧ r.coord.1 ≤ d.pixels.nColumns) ∧ 1 ≤ r.coord.2 ∧
      r.coord.2 ≤ d.pixels.nRows)
    (p : PDut) (hp : tel[0]? = some p) (horigin : p.align.x = 0 ∧ p.align.y = 0) (S : Table) (hS : files[0]? = some S) (sx sy kx ky : Nat → ℝ)
    (hsign : ∀ i, (sx i = 1 ∨ sx i = -1) ∧ (sy i = 1 ∨ sy i = -1))
    (hnodes : ∀ (i : Nat) (d : PDut) (T : Table) (e : Entry), i ≠ 0 → tel[i]? = some d → files[i]? = some T → PixelEntry lead res p d S T e →
      MostlyCorrelated (nodeOf res reduce e true) (sx i)
        (res.1 * (kx i + sx i * (d.pixels.nColumns + 1) / 2 - (p.pixels.nColumns + 1) / 2) + p.align.x) ∧
      MostlyCorrelated (nodeOf res reduce e false) (sy i)
        (res.2 * (ky i + sy i * (d.pixels.nRows + 1) / 2 - (p.pixels.nRows + 1) / 2) + p.align.y)) :
    ∃ out tel', correlate (tel.map planeOf) files res none (some [0]) cs lead = (true, .ok out) ∧
      prealign env (fileOf res reduce out 0) tel false none 0 = .ok tel' ∧
      ∀ (i : Nat) (d : PDut), i ≠ 0 → tel[i]? = some d → ∃ d', tel'[i]? = some d' ∧
        |d'.align.x - res.1 * (sx i * (d.pixels.nColumns + 1) / 2 + kx i - (p.pixels.nColumns + 1) / 2)| ≤ 3 / 4 * res.1 ∧
        |d'.align.y - res.2 * (sy i * (d.pixels.nRows + 1) / 2 + ky i - (p.pixels.nRows + 1) / 2)| ≤ 3 / 4 * res.2 := by
  have hsel : selectDuts (tel.map planeOf) none = (List.range tel.length).map Int.ofNat := by simp [selectDuts]
  have hmem : ∀ i d, tel[i]? = some d → d ∈ tel := fun i d h => List.mem_of_getElem? h
  have hproper : ∀ d ∈ tel, Corr.Spec.Proper (planeOf d) := by
    intro d hd
    obtain ⟨-, h1, h2, h3, h4⟩ := htel d hd
    exact ⟨by simp only [planeOf, h1]; exact hr.1, by simp only [planeOf, h2]; exact hr.2, by simp only [planeOf]; omega, by simp only [planeOf]; omega⟩
  have hget : ∀ i q, getDut (tel.map planeOf) i = some q → ∃ (j : Nat) (d : PDut), i = j ∧ tel[j]? = some d ∧ q = planeOf d := by
    intro i q h
    unfold getDut at h
    split at h
    · rename_i h0
      rw [List.getElem?_map] at h
      obtain ⟨d, hd, rfl⟩ := Option.map_eq_some_iff.mp h
      exact ⟨i.toNat, d, (Int.toNat_of_nonneg h0).symm, hd, rfl⟩
    · exact absurd h (by simp)
  have hin : ∀ i q t, getDut (tel.map planeOf) i = some q → getFile (selectDuts (tel.map planeOf) none) files i = some t → AllInsideSensor q t := by
    intro i q t h1 h2
    obtain ⟨j, d, rfl, hd, rfl⟩ := hget i q h1
    rw [hsel, getFile_all hlen] at h2
    intro r hrow
    obtain ⟨⟨a1, a2⟩, a3, a4⟩ := hpix j d t hd h2 r hrow
    rw [(hfiles t (List.mem_of_getElem? h2)).1]
    exact C87_indices_inside (planeOf d) (hproper d (hmem j d hd)) r a1 a2 a3 a4
  have hon : ∀ i q t, getDut (tel.map planeOf) i = some q → getFile (selectDuts (tel.map planeOf) none) files i = some t → AllOnSensor q t := by
    intro i q t h1 h2 r hrow
    have := hin i q t h1 h2 r hrow
    exact ⟨this.1.le, this.2.le⟩
  have hpos : 0 < tel.length := by
    have := (List.getElem?_eq_some_iff.mp hp).1
    omega
  have hcs : 0 < cs := by
    have := (hfiles S (List.mem_of_getElem? hS)).2.2 0
    omega
  have hvalid : ValidSelection (tel.map planeOf).length (selectDuts (tel.map planeOf) none) ((some [0] : Option (List Int)).getD (selectDuts (tel.map planeOf) none)) files := by
    rw [hsel]
    refine ⟨?_, ?_, ?_, ?_, ?_⟩
    · simpa [List.range_eq_nil] using hpos.ne'
    · intro i hi
      obtain ⟨j, hj, rfl⟩ := List.mem_map.mp hi
      have := List.mem_range.mp hj
      simpa using this
    · simp [hlen]
    · simpa using hpos
    · simp
  obtain ⟨out, hout⟩ := C87_success_partial (tel.map planeOf) files res none (some [0]) cs lead hr (by
      intro q hq
      obtain ⟨d, hd, rfl⟩ := List.mem_map.mp hq
      obtain ⟨hu, h1, h2, h3, h4⟩ := htel d hd
      have n3 : (3 : ℝ) ≤ d.pixels.nColumns := by exact_mod_cast h3
      have n4 : (3 : ℝ) ≤ d.pixels.nRows := by exact_mod_cast h4
      refine ⟨hproper d hd, ⟨(res.1, 0), (0, 0), ⟨?_, ?_⟩, ⟨?_, ?_⟩, ?_⟩, ⟨(0, res.2), (0, 0), ⟨?_, ?_⟩, ⟨?_, ?_⟩, ?_⟩⟩
      · simp only [planeOf, h1]
        rw [abs_of_pos hr.1]
        nlinarith [hr.1]
      · simp only [planeOf, h2, abs_zero]
        have := hr.2
        positivity
      · simp only [planeOf, h1, abs_zero]
        have := hr.1
        positivity
      · simp only [planeOf, h2, abs_zero]
        have := hr.2
        positivity
      · rw [(upright_global hu _).1, (upright_global hu _).1]
        have := hr.1
        simpa using this.ne'
      · simp only [planeOf, h1, abs_zero]
        have := hr.1
        positivity
      · simp only [planeOf, h2]
        rw [abs_of_pos hr.2]
        nlinarith [hr.2]
      · simp only [planeOf, h1, abs_zero]
        have := hr.1
        positivity
      · simp only [planeOf, h2, abs_zero]
        have := hr.2
        positivity
      · rw [(upright_global hu _).2, (upright_global hu _).2]
        have := hr.2
        simpa using this.ne') hvalid (fun t ht => (hfiles t ht).2) hin
  have hsorted : ∀ t ∈ files, Spec.SortedBy Row.ev t.rows := fun t ht => (hfiles t ht).2.1
  obtain ⟨-, -, hpairs⟩ := correlateRefs_pairs (correlate_ok hout)
  have hpm := hmem 0 p hp
  obtain ⟨pu, pc, pr, pnc, pnr⟩ := htel p hpm
  have hSpos := (hfiles S (List.mem_of_getElem? hS)).1
  -- every other DUT
  have main : ∀ i d, i ≠ 0 → tel[i]? = some d → ∃ d', prealignDut env (fileOf res reduce out 0) true i d = .ok d' ∧
        |d'.align.x - res.1 * (sx i * (d.pixels.nColumns + 1) / 2 + kx i - (p.pixels.nColumns + 1) / 2)| ≤ 3 / 4 * res.1 ∧
        |d'.align.y - res.2 * (sy i * (d.pixels.nRows + 1) / 2 + ky i - (p.pixels.nRows + 1) / 2)| ≤ 3 / 4 * res.2 := by
    intro i d hi hd
    obtain ⟨du, dc, dr, dnc, dnr⟩ := htel d (hmem i d hd)
    have hilt : i < tel.length := (List.getElem?_eq_some_iff.mp hd).1
    obtain ⟨T, hT⟩ : ∃ T, files[i]? = some T := ⟨files[i], List.getElem?_eq_getElem (by omega)⟩
    have hTpos := (hfiles T (List.mem_of_getElem? hT)).1
    obtain ⟨e, he, hpair⟩ := List.mem_map.mp ((hpairs 0 i).mpr ⟨by simp, by rw [hsel]; exact List.mem_map.mpr ⟨i, List.mem_range.mpr hilt, rfl⟩,
      by exact_mod_cast hi⟩)
    obtain ⟨nd, hnd⟩ : ∃ nd, fileOf res reduce out 0 i true = some nd := by
      unfold fileOf
      cases hf : out.find? fun e => e.ref == ((0 : Nat) : Int) && e.dut == (i : Int) with
      | some e => exact ⟨_, rfl⟩
      | none =>
        exfalso
        have := List.find?_eq_none.mp hf e he
        injection hpair with q1 q2
        simp [q1, q2] at this
    obtain ⟨e', he', er, ed, hfile⟩ := fileOf_some hnd
    have hSf : getFile (selectDuts (tel.map planeOf) none) files (0 : Nat) = some S := by rw [hsel, getFile_all hlen]; exact hS
    have hTf : getFile (selectDuts (tel.map planeOf) none) files (i : Nat) = some T := by rw [hsel, getFile_all hlen]; exact hT
    obtain ⟨P', Q', hP', hQ', a1, a2, a3, a4⟩ := C87_axes _ files res none (some [0]) cs lead true out hr hcs (by
      intro q hq
      obtain ⟨a, ha, rfl⟩ := List.mem_map.mp hq
      exact hproper a ha) hsorted hout e' he'
    rw [er, getDut_plane hp] at hP'
    rw [ed, getDut_plane hd] at hQ'
    obtain rfl := Option.some.inj hP'
    obtain rfl := Option.some.inj hQ'
    obtain ⟨rx1, rx2⟩ := upright_axis_x pu hr.1 pc (by rw [pr]; exact hr.2.le) a1
    obtain ⟨ry1, ry2⟩ := upright_axis_y pu hr.2 pr (by rw [pc]; exact hr.1.le) a2
    obtain ⟨dx1, dx2⟩ := upright_axis_x du hr.1 dc (by rw [dr]; exact hr.2.le) a3
    obtain ⟨dy1, dy2⟩ := upright_axis_y du hr.2 dr (by rw [dc]; exact hr.1.le) a4
    have hplanes : ∀ q ∈ tel.map planeOf, Corr.Spec.Proper q := by
      intro q hq
      obtain ⟨a, ha, rfl⟩ := List.mem_map.mp hq
      exact hproper a ha
    have hentry : PixelEntry lead res p d S T e' := by
      obtain ⟨P, Q, S', T', b1, b2, b3, b4, hcount⟩ := C86_counts _ files res none (some [0]) cs lead true out hr hcs hplanes hsorted hon hout e' he'
      rw [er, getDut_plane hp] at b1
      rw [ed, getDut_plane hd] at b2
      rw [er, hSf] at b3
      rw [ed, hTf] at b4
      obtain rfl := Option.some.inj b1
      obtain rfl := Option.some.inj b2
      obtain rfl := Option.some.inj b3
      obtain rfl := Option.some.inj b4
      obtain ⟨-, -, -, -, j, -, j1, j2, -, j3, j4, -⟩ := entry_spec hcs hsorted hout e' he'
      rw [← j1, ← j2] at j3 j4
      rw [dx1, rx1] at j3
      rw [dy1, ry1] at j4
      have ext : ∀ (a : Axis) (b : ℝ) (n : Nat), a.bins = n → a.start = b → a = ⟨b, n⟩ := by
        rintro ⟨_, _⟩ _ _ rfl rfl
        rfl
      refine ⟨ext _ _ _ rx1 rx2, ext _ _ _ ry1 ry2, ext _ _ _ dx1 dx2, ext _ _ _ dy1 dy2, fun i j => ?_, fun i j => ?_, j3, j4⟩
      · rw [(hcount i j).1]
        unfold pairsInBins pairsInPixels
        apply pairCount_congr
        intro a _ b _
        rw [hSpos, hTpos, (upright_pos pu pc pr a).1, (upright_pos du dc dr b).1, rx2, dx2]
        apply decide_eq_decide.mpr
        rw [bin_pixel hr.1, bin_pixel hr.1]
      · rw [(hcount i j).2]
        unfold pairsInBins pairsInPixels
        apply pairCount_congr
        intro a _ b _
        rw [hSpos, hTpos, (upright_pos pu pc pr a).2, (upright_pos du dc dr b).2, ry2, dy2]
        apply decide_eq_decide.mpr
        rw [bin_pixel hr.2, bin_pixel hr.2]
    obtain ⟨m1, m2⟩ := hnodes i d T e' hi hd hT hentry
    have r1 : Regular (nodeOf res reduce e' true) := arrayOf_regular res.1 hr.1 e'.ra.x e'.da.x _
    have r2 : Regular (nodeOf res reduce e' false) := arrayOf_regular res.2 hr.2 e'.ra.y e'.da.y _
    have h12 := sqrt12
    obtain ⟨fx, hfx, hfx2, -⟩ := C210_succeeds env hsort hdens _ r1 (by simp only [nodeOf, if_true, arrayOf_length, dx1]; exact dnc)
      (by simp only [refMiddle, nodeOf, if_true, extentOf, rx1, rx2, horigin.1]; ring) (sx i) _ (hsign i).1 m1 d.pixels.columnSize (by
        rw [dc]
        simp only [nodeOf, if_true]
        nlinarith [hr.1])
    obtain ⟨fy, hfy, hfy2, -⟩ := C210_succeeds env hsort hdens _ r2 (by simp only [nodeOf, Bool.false_eq_true, if_false, arrayOf_length, dy1]; exact dnr)
      (by simp only [refMiddle, nodeOf, Bool.false_eq_true, if_false, extentOf, ry1, ry2, horigin.2]; ring) (sy i) _ (hsign i).2 m2 d.pixels.rowSize (by
        rw [dr]
        simp only [nodeOf, Bool.false_eq_true, if_false]
        nlinarith [hr.2])
    have hR : rotationMatrix d.align.alpha d.align.beta d.align.gamma 2 0 = 0 := by
      rw [du.1, du.2.1, du.2.2, demo_rotation]; simp
    have h20 : newRotation d.align fx.slope fy.slope 2 0 = 0 := by
      rcases newRotation_20 d.align fx.slope fy.slope with h | h <;> rw [h, hR] <;> simp
    obtain ⟨al, be, ga, heul, -⟩ := C32_close_partial _ (newRotation_proper d.align fx.slope fy.slope) (by rw [h20]; norm_num) (by rw [h20]; norm_num)
    -- a pixel in the range of the correlation
    obtain ⟨c, hc, hcl⟩ := fit_limit r1 hfx
    obtain ⟨r, hrr, hrl⟩ := fit_limit r2 hfy
    have hc' : c < d.pixels.nColumns := by
      simp only [nodeOf, if_true, arrayOf_length, dx1] at hc
      exact hc
    have hrr' : r < d.pixels.nRows := by
      simp only [nodeOf, Bool.false_eq_true, if_false, arrayOf_length, dy1] at hrr
      exact hrr
    have hglob := upright_pos du dc dr ⟨0, (((c + 1 : Nat) : ℝ), ((r + 1 : Nat) : ℝ))⟩
    have hin' : inside d fx fy ≠ [] := by
      apply List.ne_nil_of_mem (a := (((c + 1 : Nat) : ℝ), ((r + 1 : Nat) : ℝ)))
      refine List.mem_filter.mpr ⟨(allPixels_mem _ _).mpr ⟨c + 1, r + 1, by omega, by omega, by omega, by omega, rfl⟩, ?_⟩
      have hg : globalOf d.pixels d.align (((c + 1 : Nat) : ℝ), ((r + 1 : Nat) : ℝ)) =
          globalPos (planeOf d) false ⟨0, (((c + 1 : Nat) : ℝ), ((r + 1 : Nat) : ℝ))⟩ := rfl
      rw [hg]
      unfold inRange
      simp only [Bool.and_eq_true, decide_eq_true_eq]
      have ex : dutCentre (nodeOf res reduce e' true) c = globalPos (planeOf d) false ⟨0, (((c + 1 : Nat) : ℝ), ((r + 1 : Nat) : ℝ))⟩ 0 := by
        rw [hglob.1]
        simp only [dutCentre, nodeOf, if_true, extentOf, dx2]
        push_cast
        ring
      have ey : dutCentre (nodeOf res reduce e' false) r = globalPos (planeOf d) false ⟨0, (((c + 1 : Nat) : ℝ), ((r + 1 : Nat) : ℝ))⟩ 1 := by
        rw [hglob.2]
        simp only [dutCentre, nodeOf, Bool.false_eq_true, if_false, extentOf, dy2]
        push_cast
        ring
      rw [← ex, ← ey]
      exact ⟨hcl, hrl⟩
    obtain ⟨mx, hmx⟩ := minMax_ne (l := (inside d fx fy).map fun p => localOf d.pixels p 0) (by simpa using hin')
    obtain ⟨my, hmy⟩ := minMax_ne (l := (inside d fx fy).map fun p => localOf d.pixels p 1) (by simpa using hin')
    have hset := (setDut_ok_iff d _ fx fy).mpr ⟨mx, my, al, be, ga, hmx, hmy, heul, rfl⟩
    refine ⟨_, (prealignDut_ok_iff _ _ i true _ _).mpr ⟨rfl, _, _, fx, fy, hfile true, hfile false, hfx, hfy, hset⟩, ?_, ?_⟩
    · dsimp only
      rw [horigin.1, add_zero] at hfx2
      have e1 : res.1 * (sx i * (d.pixels.nColumns + 1) / 2 + kx i - (p.pixels.nColumns + 1) / 2)
        = res.1 * (kx i + sx i * (d.pixels.nColumns + 1) / 2 - (p.pixels.nColumns + 1) / 2) := by ring
      rw [e1]
      exact hfx2
    · dsimp only
      rw [horigin.2, add_zero] at hfy2
      have e1 : res.2 * (sy i * (d.pixels.nRows + 1) / 2 + ky i - (p.pixels.nRows + 1) / 2)
        = res.2 * (ky i + sy i * (d.pixels.nRows + 1) / 2 - (p.pixels.nRows + 1) / 2) := by ring
      rw [e1]
      exact hfy2
  choose! D hD using main
  refine ⟨out, tel.mapIdx fun i d => if i = 0 then d else D i d, hout, (prealign_ok_iff _ _ _ _ _ _ _).mpr ⟨rfl, by simp, ?_, ?_⟩, ?_⟩
  · intro k ⟨h0, h1⟩
    have h1 : k < tel.length := h1
    refine ⟨tel[k], D k tel[k], List.getElem?_eq_getElem h1, ?_, ?_⟩
    · rw [decide_eq_true hpos]
      exact (hD k tel[k] h0 (List.getElem?_eq_getElem h1)).1
    · simp [List.getElem?_mapIdx, h1, h0]
  · intro k hk
    rw [List.getElem?_mapIdx]
    by_cases h0 : k = 0
    · simp [h0]
    · have : ¬ k < tel.length := fun h => hk ⟨h0, h⟩
      rw [List.getElem?_eq_none (by omega)]
      rfl
  · intro i d hi hd
    refine ⟨D i d, ?_, (hD i d hi hd).2⟩
    rw [List.getElem?_mapIdx, hd]
    simp [hi]

/-! ### C211 -/

/-- C211: if the hits of a DUT are correlated with the hits of the reference for more than three quarters of the bins in both directions, then the chain
of `correlate` and `prealign` (without reduction of the background) moves the DUT to the position at which the reference sees it, within three
quarters of a bin. -/
theorem C211_position (env : Env) (hsort : Sorts env) (tel tel' : List PDut) (files : List Table) (res : ℝ × ℝ) (select refs : Option (List Int)) (cs : Nat)
    (lead : Leading) (o : Bool) (out : List Entry) (hr : 0 < res.1 ∧ 0 < res.2) (hcs : 0 < cs) (hp : ∀ p ∈ tel, Corr.Spec.Proper (planeOf p))
    (hs : ∀ t ∈ files, BTA.Spec.SortedBy Row.ev t.rows)
    (hon : ∀ i p t, getDut (tel.map planeOf) i = some p → getFile (selectDuts (tel.map planeOf) select) files i = some t → AllOnSensor p t)
    (h : correlate (tel.map planeOf) files res select refs cs lead = (o, .ok out)) (same : Bool) (sel : Option (List Nat)) (ref i : Nat)
    (hpre : prealign env (fileOf res false out ref) tel same sel ref = .ok tel') (hi : Aligned tel.length ref sel i) (p d : PDut)
    (hpr : tel[ref]? = some p) (hd : tel[i]? = some d) (S T : Table) (hS : getFile (selectDuts (tel.map planeOf) select) files ref = some S)
    (hT : getFile (selectDuts (tel.map planeOf) select) files i = some T) (sx posx sy posy : ℝ) (hsx : sx = 1 ∨ sx = -1) (hsy : sy = 1 ∨ sy = -1)
    (hx : HitsCorrelated (planeOf p) (planeOf d) S T 0 res.1 sx posx) (hy : HitsCorrelated (planeOf p) (planeOf d) S T 1 res.2 sy posy) :
    ∃ d', tel'[i]? = some d' ∧ |d'.align.x - posx| ≤ 3 / 4 * res.1 ∧ |d'.align.y - posy| ≤ 3 / 4 * res.2 := by
  obtain ⟨-, nx, ny, -, -, -, -, -, -, -, -, hnx, -⟩ := prealign_fits hpre hi
  obtain ⟨e, he, er, ed, hfile⟩ := fileOf_some hnx
  obtain ⟨r1, r2, m1, m2⟩ := nodes_correlated hr hcs hp hs hon h hpr hd hS hT he er ed hx hy
  exact C210_position env hsort _ tel tel' same sel ref i hpre hi _ _ (hfile true) (hfile false) r1 r2 sx posx sy posy hsx hsy m1 m2

/-- C211: sensors with pixels of the same size, not rotated, with the first one at the origin. If more than three quarters of the columns and of the rows
of each DUT have most of their coincidences with the column `sx * column + kx` and the row `sy * row + ky` of the first DUT, then `correlate` and
`prealign` succeed with bins of the size of a pixel, and every DUT is at its true position within three quarters of a pixel, wherever it was
thought to be. -/
theorem C211_pixels (env : Env) (hsort : Sorts env) (hdens : ∀ xs x, 0 < env.density xs x) (tel : List PDut) (files : List Table) (res : ℝ × ℝ) (cs : Nat)
    (lead : Leading) (hr : 0 < res.1 ∧ 0 < res.2)
    (htel : ∀ d ∈ tel, Upright d ∧ d.pixels.columnSize = res.1 ∧ d.pixels.rowSize = res.2 ∧ 3 ≤ d.pixels.nColumns ∧ 3 ≤ d.pixels.nRows)
    (hlen : files.length = tel.length)
    (hfiles : ∀ t ∈ files, t.positions = false ∧ Spec.SortedBy Row.ev t.rows ∧ ∀ v, Spec.multiplicity Row.ev t.rows v < cs)
    (hpix : ∀ (i : Nat) (d : PDut) (t : Table), tel[i]? = some d → files[i]? = some t → ∀ r ∈ t.rows, (1 ≤ r.coord.1 ∧ r.coord.1 ≤ d.pixels.nColumns) ∧ 1 ≤ r.coord.2 ∧
      r.coord.2 ≤ d.pixels.nRows)
    (p : PDut) (hp : tel[0]? = some p) (horigin : p.align.x = 0 ∧ p.align.y = 0) (S : Table) (hS : files[0]? = some S) (sx sy kx ky : Nat → ℝ)
    (hsign : ∀ i, (sx i = 1 ∨ sx i = -1) ∧ (sy i = 1 ∨ sy i = -1))
    (hseen : ∀ (i : Nat) (d : PDut) (T : Table), i ≠ 0 → tel[i]? = some d → files[i]? = some T →
      MostlySeen S T (fun r => r.coord.1) p.pixels.nColumns d.pixels.nColumns (sx i) (kx i) ∧
      MostlySeen S T (fun r => r.coord.2) p.pixels.nRows d.pixels.nRows (sy i) (ky i)) :
    ∃ out tel', correlate (tel.map planeOf) files res none (some [0]) cs lead = (true, .ok out) ∧
      prealign env (fileOf res false out 0) tel false none 0 = .ok tel' ∧
      ∀ (i : Nat) (d : PDut), i ≠ 0 → tel[i]? = some d → ∃ d', tel'[i]? = some d' ∧
        |d'.align.x - res.1 * (sx i * (d.pixels.nColumns + 1) / 2 + kx i - (p.pixels.nColumns + 1) / 2)| ≤ 3 / 4 * res.1 ∧
        |d'.align.y - res.2 * (sy i * (d.pixels.nRows + 1) / 2 + ky i - (p.pixels.nRows + 1) / 2)| ≤ 3 / 4 * res.2 := by
  refine chain_pixels env hsort hdens tel files res cs lead false hr htel hlen hfiles hpix p hp horigin S hS sx sy kx ky hsign ?_
  intro i d T e hi hd hT he
  obtain ⟨seenx, seeny⟩ := hseen i d T hi hd hT
  constructor
  · simp only [nodeOf, if_true, he.rx, he.dx, Bool.false_eq_true, if_false]
    apply axis_correlated
    refine le_trans (Nat.add_le_add_right (Nat.mul_le_mul_left 4 (Set.ncard_le_ncard ?_ ((Set.finite_Iic d.pixels.nColumns).subset fun c h => h.2.1))) 2) seenx
    rintro c ⟨h1, h2, h3⟩
    refine ⟨h1, h2, fun ⟨c', g1, g2, g3, g4⟩ => h3 ⟨c', g1, g2, g3, fun c'' k1 k2 k3 => ?_⟩⟩
    have := g4 c'' k1 k2 k3
    rw [he.x, he.x, Nat.sub_add_cancel h1, Nat.sub_add_cancel k1, Nat.sub_add_cancel g1]
    exact_mod_cast this
  · simp only [nodeOf, he.ry, he.dy, Bool.false_eq_true, if_false]
    apply axis_correlated
    refine le_trans (Nat.add_le_add_right (Nat.mul_le_mul_left 4 (Set.ncard_le_ncard ?_ ((Set.finite_Iic d.pixels.nRows).subset fun c h => h.2.1))) 2) seeny
    rintro c ⟨h1, h2, h3⟩
    refine ⟨h1, h2, fun ⟨c', g1, g2, g3, g4⟩ => h3 ⟨c', g1, g2, g3, fun c'' k1 k2 k3 => ?_⟩⟩
    have := g4 c'' k1 k2 k3
    rw [he.y, he.y, Nat.sub_add_cancel h1, Nat.sub_add_cancel k1, Nat.sub_add_cancel g1]
    exact_mod_cast this

/-! ### Example: a reference with 5 x 5 pixels and a DUT with 3 x 3 pixels that is thought to be at x = 700. The DUT sees the columns and rows 1 to 3 of the
reference: the true position is one pixel (50) below zero. -/

noncomputable def chainTel : List PDut := [⟨⟨50, 50, 5, 5⟩, ⟨0, 0, 0, 0, 0, 0⟩, none, none⟩, ⟨⟨50, 50, 3, 3⟩, ⟨700, 0, 1000, 0, 0, 0⟩, none, none⟩]

noncomputable def chainTable : Table := ⟨false, [⟨1, (1, 1)⟩, ⟨2, (2, 2)⟩, ⟨3, (3, 3)⟩]⟩

theorem chain_seen (f : Row → ℝ) (hf : ∀ (e : Int) (a : ℝ), f ⟨e, (a, a)⟩ = a) : MostlySeen chainTable chainTable f 5 3 1 0 := by
  have hpairs : ∀ c c' : Nat, 1 ≤ c → c ≤ 3 → 1 ≤ c' → c' ≤ 5 → pairsInPixels chainTable chainTable f c c' = if c = c' then 1 else 0 := by
    intro c c' h1 h2 h3 h4
    unfold pairsInPixels Spec.pairCount
    simp only [chainTable, List.flatMap_cons, List.flatMap_nil, List.map_cons, List.map_nil, List.cons_append, List.nil_append, List.append_nil,
      List.countP_cons, List.countP_nil, hf]
    interval_cases c <;> interval_cases c' <;> norm_num
  have hempty : {c : Nat | 1 ≤ c ∧ c ≤ 3 ∧ ¬ SeesPartner chainTable chainTable f 5 1 0 c} = ∅ := by
    ext c
    simp only [Set.mem_setOf_eq, Set.mem_empty_iff_false, iff_false, not_and, not_not]
    intro h1 h2
    refine ⟨c, h1, by omega, by ring, fun c'' h3 h4 hne => ?_⟩
    rw [hpairs c c'' h1 h2 h3 h4, hpairs c c h1 h2 h1 (by omega), if_pos rfl, if_neg fun h => hne h.symm]
    norm_num
  unfold MostlySeen
  rw [hempty, Set.ncard_empty]
  norm_num

/-- C211: the position of the DUT is found. -/
example (lead : Leading) : ∃ (out : List Entry) (tel' : List PDut) (d' : PDut), correlate (chainTel.map planeOf) [chainTable, chainTable] (50, 50) none (some [0]) 10 lead = (true, .ok out) ∧
    prealign exEnv (fileOf (50, 50) false out 0) chainTel false none 0 = .ok tel' ∧ tel'[1]? = some d' ∧ |d'.align.x - -50| ≤ (75 / 2 : ℝ) ∧
    |d'.align.y - -50| ≤ (75 / 2 : ℝ) := by
  obtain ⟨out, tel', h1, h2, h3⟩ := C211_pixels exEnv exEnv_sorts (fun _ _ => one_pos) chainTel [chainTable, chainTable] (50, 50) 10 lead (by norm_num)
    (by
      intro d hd
      simp only [chainTel, List.mem_cons, List.not_mem_nil, or_false] at hd
      rcases hd with rfl | rfl <;> simp [Upright]) rfl
    (by
      intro t ht
      have ht : t = chainTable := by simpa using ht
      subst ht
      refine ⟨rfl, by simp [chainTable, Spec.SortedBy], fun v => ?_⟩
      unfold Spec.multiplicity
      exact lt_of_le_of_lt (List.length_filter_le _ _) (by simp [chainTable]))
    (by
      intro i d t hd ht r hr
      have ht : t = chainTable := by
        have := List.mem_of_getElem? ht
        simpa using this
      subst ht
      have hd := List.mem_of_getElem? hd
      simp only [chainTel, List.mem_cons, List.not_mem_nil, or_false] at hd
      simp only [chainTable, List.mem_cons, List.not_mem_nil, or_false] at hr
      rcases hd with rfl | rfl <;> rcases hr with rfl | rfl | rfl <;> norm_num)
    _ rfl ⟨rfl, rfl⟩ _ rfl (fun _ => 1) (fun _ => 1) (fun _ => 0) (fun _ => 0) (fun _ => ⟨.inl rfl, .inl rfl⟩)
    (by
      intro i d T hi hd hT
      have hT' : T = chainTable := by
        have := List.mem_of_getElem? hT
        simpa using this
      subst hT'
      have hlt : i < 2 := (List.getElem?_eq_some_iff.mp hd).1
      obtain rfl : i = 1 := by omega
      obtain rfl := Option.some.inj hd
      exact ⟨chain_seen _ fun _ _ => rfl, chain_seen _ fun _ _ => rfl⟩)
  obtain ⟨d', hd', hx, hy⟩ := h3 1 _ (by norm_num) rfl
  refine ⟨out, tel', d', h1, h2, hd', ?_, ?_⟩
  · norm_num at hx ⊢
    exact hx
  · norm_num at hy ⊢
    exact hy

end BTA.Props
