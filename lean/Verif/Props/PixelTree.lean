import Verif.Lemmas.PixelTree
import Verif.Props.InPixel
import Mathlib.Data.Rat.Floor
/-
C163, C164, C165: the pixels, the bins and the mask of disabled pixels in `calculate_efficiency`.
-/
namespace BTA.PixelTree.Props
open BTA.Dut BTA.Binning BTA.Spec BTA.Efficiency.Spec

variable {K : Type} [Field K] [LinearOrder K] [IsStrictOrderedRing K] [FloorRing K]

omit [FloorRing K] in
/-- C163 for pixels of any shape: for a position on the sensor the tree finds the closest of all pixels, for a position outside of the sensor
it finds no pixel (an index that is not counted). -/
theorem C163_any_layout (f : Scipy K) (hq : QueryRight f) (hv : VoronoiRight f) (e : Extent K) (hx : e.x.1 < e.x.2) (hy : e.y.1 < e.y.2)
    (ps : List (K × K)) (hne : ps ≠ []) (hps : ∀ p ∈ ps, Inside e p) (pos : K × K) :
    (Inside e pos → ClosestIndex ps pos (f.query (treePoints f e ps) pos)) ∧
    (Outside e pos → ps.length ≤ f.query (treePoints f e ps) pos) := by
  have hcl := hq (treePoints f e ps) pos (by unfold treePoints; simp [hne])
  exact ⟨fun h => (closest_inside ⟨hx, hy⟩ hps h hcl).2, fun h => closest_outside hv ⟨hx, hy⟩ hps h hcl⟩

/-- C163: the number assigned to a position in the pixel of column `c` and row `r` is the one of this pixel; a position outside of the sensor is
not assigned to a pixel. -/
theorem C163_assigned (f : Scipy K) (hq : QueryRight f) (hv : VoronoiRight f) (d : Pixels K) (hs : Sensor d) (a : Args K)
    (s : Efficiency.Setup K) (h : setupOf f d a = .ok s) (x y : K) :
    s.nPixels = d.nColumns * d.nRows ∧
    (∀ c r, InPixel d c r (x, y) → s.nearest x y = c * d.nRows + r) ∧ (OffSensor d (x, y) → s.nPixels ≤ s.nearest x y) := by
  have hn : s.nPixels = d.nColumns * d.nRows := by
    rw [setupOf_eq f hs a] at h
    simp only [Except.ok.injEq] at h
    rw [← h]
  have := nearest_of hq hv hs h (x, y)
  exact ⟨hn, this.1, by rw [hn]; exact this.2⟩

omit [IsStrictOrderedRing K] [FloorRing K] in
theorem pixel_unique {d : Pixels K} {c r c' r' : Nat} (hr : r < d.nRows) (hr' : r' < d.nRows) (h : c * d.nRows + r = c' * d.nRows + r') :
    c = c' ∧ r = r' := by
  constructor
  · rw [← (index_div (c := c) hr).1, h, (index_div hr').1]
  · rw [← (index_div (c := c) hr).2, h, (index_div hr').2]

/-- For a position that is not on the border of a pixel: the assigned number is the one of the pixel with the position inside. -/
theorem assigned_iff {f : Scipy K} (hq : QueryRight f) (hv : VoronoiRight f) {d : Pixels K} (hs : Sensor d) {a : Args K}
    {s : Efficiency.Setup K} (h : setupOf f d a = .ok s) {x y : K} (hcl : Clear d (x, y)) {c r : Nat} (hc : c < d.nColumns) (hr : r < d.nRows) :
    s.nearest x y = c * d.nRows + r ↔ InPixel d c r (x, y) := by
  obtain ⟨hn, h1, h2⟩ := C163_assigned f hq hv d hs a s h x y
  constructor
  · intro e
    rcases hcl with ⟨c', r', hin⟩ | hoff
    · have := h1 c' r' hin
      rw [e] at this
      obtain ⟨rfl, rfl⟩ := pixel_unique hr hin.2.1 this
      exact hin
    · have := h2 hoff
      rw [e, hn] at this
      exact absurd (index_lt hc hr) (not_lt.mpr this)
  · exact h1 c r

/-- C163: the efficiency of a pixel is the one of the tracks through this pixel, for every chunk size. No track is exactly on the border of
a pixel. -/
theorem C163_efficiency (f : Scipy K) (hq : QueryRight f) (hv : VoronoiRight f) (d : Pixels K) (hd : Sensor d) (a : Args K)
    (s : Efficiency.Setup K) (hset : setupOf f d a = .ok s) (T : List (Efficiency.Row K)) (hs : SortedBy Efficiency.Row.event T) (cs : Nat)
    (hcs : 0 < cs) (sc sc' : Efficiency.Scope K) (o : Efficiency.Output K) (h : Efficiency.dutEfficiency s T cs sc = .ok (o, sc'))
    (hclear : ∀ t ∈ T, Clear d (posX s t, posY s t)) (c r : Nat) (hc : c < d.nColumns) (hr : r < d.nRows) :
    o.pixelEfficiency (c * d.nRows + r) =
      ratio (number T fun t => Used s t ∧ InPixel d c r (posX s t, posY s t) ∧ Matched s t)
        (number T fun t => Used s t ∧ InPixel d c r (posX s t, posY s t)) := by
  obtain ⟨hn, -, -⟩ := C163_assigned f hq hv d hd a s hset 0 0
  have hp : c * d.nRows + r < s.nPixels := by rw [hn]; exact index_lt hc hr
  obtain ⟨h1, -, -⟩ := Efficiency.Props.C45_pixels s T hs cs hcs sc sc' o h _ hp
  rw [h1]
  congr 1
  · refine InPixel.Props.number_congr fun t ht => ?_
    beta_reduce
    rw [assigned_iff hq hv hd hset (hclear t ht) hc hr]
  · refine InPixel.Props.number_congr fun t ht => ?_
    beta_reduce
    rw [assigned_iff hq hv hd hset (hclear t ht) hc hr]

/-- C165: with a mask of disabled pixels exactly the tracks through enabled pixels of the sensor are used, without a mask all tracks. No track is
exactly on the border of a pixel. -/
theorem C165_mask (f : Scipy K) (hq : QueryRight f) (hv : VoronoiRight f) (d : Pixels K) (hd : Sensor d) (a : Args K)
    (s : Efficiency.Setup K) (hset : setupOf f d a = .ok s) (t : Efficiency.Row K) (hclear : Clear d (posX s t, posY s t)) :
    Used s t ↔ ∀ disabled, a.mask = some disabled → ∃ c r, InPixel d c r (posX s t, posY s t) ∧ disabled c r = false := by
  have hen : ∀ x y, s.enabled x y = match a.mask with
      | none => true
      | some disabled => (enabledIndices d disabled).contains (s.nearest x y) := by
    rw [setupOf_eq f hd a] at hset
    simp only [Except.ok.injEq] at hset
    subst hset
    intro x y
    simp only [isEnabled]
    cases a.mask <;> rfl
  unfold Used
  rw [hen]
  cases hm : a.mask with
  | none => simp
  | some disabled =>
    simp only [List.contains_iff_mem, mem_enabled, Option.some.injEq, forall_eq']
    obtain ⟨hn, h1, h2⟩ := C163_assigned f hq hv d hd a s hset (posX s t) (posY s t)
    constructor
    · rintro ⟨g1, g2⟩
      rcases hclear with ⟨c, r, hin⟩ | hoff
      · rw [h1 c r hin, (index_div hin.2.1).1, (index_div hin.2.1).2] at g2
        exact ⟨c, r, hin, g2⟩
      · have := h2 hoff
        omega
    · rintro ⟨c, r, hin, hdis⟩
      rw [h1 c r hin, (index_div hin.2.1).1, (index_div hin.2.1).2]
      exact ⟨index_lt hin.1 hin.2.1, hdis⟩

/-- The bins of one direction: `n` bins of width `res`, symmetric around 0, on each side at least the half of `size` and the extension, and less
than one bin and a half too much. -/
structure GoodBins (size res : K) (extend : Option K) (edges : List K) (n : Nat) : Prop where
  length : edges.length = n + 1
  edge : ∀ i ≤ n, edges[i]? = some (((i : K) - (n : K) / 2) * res)
  covers : size / 2 + extend.getD 0 ≤ (n : K) / 2 * res
  tight : (n : K) / 2 * res < size / 2 + extend.getD 0 + 3 / 2 * res

theorem histEdges_good {size res : K} (hr : 0 < res) (hs : 0 < size) {extend : Option K} (he : ∀ a, extend = some a → 0 ≤ a) :
    GoodBins size res extend (histEdges size res extend) (nBins size res extend) := by
  have hlo : size ≤ (⌈size / res⌉.toNat : K) * res ∧ (⌈size / res⌉.toNat : K) * res < size + res := by
    have h0 : ((⌈size / res⌉.toNat : Nat) : K) = ((⌈size / res⌉ : Int) : K) := by
      have := Int.toNat_of_nonneg (Int.ceil_nonneg (show (0 : K) ≤ size / res by positivity))
      calc ((⌈size / res⌉.toNat : Nat) : K) = (((⌈size / res⌉.toNat : Nat) : Int) : K) := by push_cast; rfl
        _ = _ := by rw [this]
    rw [h0]
    have h1 := Int.le_ceil (size / res)
    have h2 := Int.ceil_lt_add_one (size / res)
    rw [div_le_iff₀ hr] at h1
    refine ⟨h1, ?_⟩
    have : (⌈size / res⌉ : K) * res < (size / res + 1) * res := mul_lt_mul_of_pos_right h2 hr
    calc _ < _ := this
      _ = size + res := by field_simp
  have hext : extend.getD 0 ≤ ((extend.elim 0 fun a => ⌈a / res⌉.toNat : Nat) : K) * res ∧
      ((extend.elim 0 fun a => ⌈a / res⌉.toNat : Nat) : K) * res < extend.getD 0 + res := by
    cases extend with
    | none => simp [hr]
    | some a =>
      have ha := he a rfl
      have h0 : ((⌈a / res⌉.toNat : Nat) : K) = ((⌈a / res⌉ : Int) : K) := by
        have := Int.toNat_of_nonneg (Int.ceil_nonneg (show (0 : K) ≤ a / res by positivity))
        calc ((⌈a / res⌉.toNat : Nat) : K) = (((⌈a / res⌉.toNat : Nat) : Int) : K) := by push_cast; rfl
          _ = _ := by rw [this]
      simp only [Option.elim_some, Option.getD_some]
      rw [h0]
      have h1 := Int.le_ceil (a / res)
      have h2 := Int.ceil_lt_add_one (a / res)
      rw [div_le_iff₀ hr] at h1
      refine ⟨h1, ?_⟩
      have : (⌈a / res⌉ : K) * res < (a / res + 1) * res := mul_lt_mul_of_pos_right h2 hr
      calc _ < _ := this
        _ = a + res := by field_simp
  refine ⟨histEdges_length hr hs he, ?_, ?_, ?_⟩
  · intro i hi
    rw [histEdges_get hr hs he, if_pos (by omega)]
    rfl
  · unfold nBins; push_cast; linarith [hlo.1, hext.1]
  · unfold nBins; push_cast; linarith [hlo.2, hext.2]

/-- C164: the bins of the 2D histograms have exactly the size of the given resolution, they cover the sensor and the extension. -/
theorem C164_bins (f : Scipy K) (d : Pixels K) (hd : Sensor d) (a : Args K) (s : Efficiency.Setup K) (hset : setupOf f d a = .ok s)
    (hx : 0 < a.resolution.1) (hy : 0 < a.resolution.2) (ex : ∀ e, a.extend.1 = some e → 0 ≤ e) (ey : ∀ e, a.extend.2 = some e → 0 ≤ e) :
    ∃ nx ny, GoodBins (d.nColumns * d.columnSize) a.resolution.1 a.extend.1 s.edgesX nx ∧
      GoodBins (d.nRows * d.rowSize) a.resolution.2 a.extend.2 s.edgesY ny := by
  have h1 : (0 : K) < d.nColumns * d.columnSize := mul_pos (by exact_mod_cast hd.columns) hd.columnSize
  have h2 : (0 : K) < d.nRows * d.rowSize := mul_pos (by exact_mod_cast hd.rows) hd.rowSize
  rw [setupOf_eq f hd a] at hset
  simp only [Except.ok.injEq] at hset
  subst hset
  exact ⟨_, _, histEdges_good hx h1 ex, histEdges_good hy h2 ey⟩

omit [FloorRing K] in
theorem good_valid {size res : K} (hr : 0 < res) (hs : 0 < size) {extend : Option K} (he : ∀ a, extend = some a → 0 ≤ a) {edges : List K} {n : Nat}
    (h : GoodBins size res extend edges n) : ValidEdges edges := by
  have hn : 0 < n := by
    rcases Nat.eq_zero_or_pos n with h0 | h0
    · exfalso
      have := h.covers
      rw [h0] at this
      have he' : 0 ≤ extend.getD 0 := by
        cases extend with
        | none => simp
        | some a => exact he a rfl
      simp at this
      linarith
    · exact h0
  refine ⟨by rw [h.length]; omega, ?_⟩
  rw [List.pairwise_iff_getElem]
  intro i j hi hj hij
  rw [h.length] at hi hj
  have e1 := h.edge i (by omega)
  have e2 := h.edge j (by omega)
  rw [List.getElem?_eq_some_iff] at e1 e2
  obtain ⟨_, e1⟩ := e1
  obtain ⟨_, e2⟩ := e2
  rw [e1, e2]
  have : (i : K) < j := by exact_mod_cast hij
  nlinarith

/-- The bins are valid edges, as the theorems on the efficiency (C45) require. -/
theorem C164_valid (f : Scipy K) (d : Pixels K) (hd : Sensor d) (a : Args K) (s : Efficiency.Setup K) (hset : setupOf f d a = .ok s)
    (hx : 0 < a.resolution.1) (hy : 0 < a.resolution.2) (ex : ∀ e, a.extend.1 = some e → 0 ≤ e) (ey : ∀ e, a.extend.2 = some e → 0 ≤ e) :
    ValidEdges s.edgesX ∧ ValidEdges s.edgesY := by
  obtain ⟨nx, ny, g1, g2⟩ := C164_bins f d hd a s hset hx hy ex ey
  have h1 : (0 : K) < d.nColumns * d.columnSize := mul_pos (by exact_mod_cast hd.columns) hd.columnSize
  have h2 : (0 : K) < d.nRows * d.rowSize := mul_pos (by exact_mod_cast hd.rows) hd.rowSize
  exact ⟨good_valid hx h1 ex g1, good_valid hy h2 ey g2⟩

omit [FloorRing K] in
theorem inBin_good {size res v : K} (hr : 0 < res) {extend : Option K} {edges : List K} {n : Nat} (h : GoodBins size res extend edges n) (i : Nat) :
    InBin edges i v ↔ i < n ∧ lowerEnd res n i ≤ v ∧ (v < lowerEnd res n (i + 1) ∨ v = lowerEnd res n (i + 1) ∧ i + 1 = n) := by
  unfold InBin
  constructor
  · rintro ⟨lo, hi, e1, e2, h1, h2⟩
    have hlt : i < n := by
      have := (List.getElem?_eq_some_iff.mp e2).1
      rw [h.length] at this
      omega
    rw [h.edge i (by omega)] at e1
    rw [h.edge (i + 1) (by omega)] at e2
    simp only [Option.some.injEq] at e1 e2
    subst e1; subst e2
    refine ⟨hlt, h1, ?_⟩
    rcases h2 with h2 | ⟨h2, h3⟩
    · exact .inl h2
    · exact .inr ⟨h2, by rw [h.length] at h3; omega⟩
  · rintro ⟨hlt, h1, h2⟩
    refine ⟨_, _, h.edge i (by omega), h.edge (i + 1) (by omega), h1, ?_⟩
    rcases h2 with h2 | ⟨h2, h3⟩
    · exact .inl h2
    · exact .inr ⟨h2, by rw [h.length]; omega⟩

/-- C164: each track on the sensor, its border included, is in a bin (and in only one). -/
theorem C164_on_sensor (f : Scipy K) (d : Pixels K) (hd : Sensor d) (a : Args K) (s : Efficiency.Setup K) (hset : setupOf f d a = .ok s)
    (hx : 0 < a.resolution.1) (hy : 0 < a.resolution.2) (ex : ∀ e, a.extend.1 = some e → 0 ≤ e) (ey : ∀ e, a.extend.2 = some e → 0 ≤ e)
    (t : Efficiency.Row K) (hon : ¬ OffSensor d (posX s t, posY s t)) : ∃! b : Nat × Nat, TrackIn s b.1 b.2 t := by
  obtain ⟨nx, ny, g1, g2⟩ := C164_bins f d hd a s hset hx hy ex ey
  have hex : ∀ {size res v : K} {extend : Option K} {edges : List K} {n : Nat}, 0 < res → 0 < size → (∀ e, extend = some e → 0 ≤ e) →
      GoodBins size res extend edges n → -(size / 2) ≤ v → v ≤ size / 2 → ∃! i, InBin edges i v := by
    intro size res v extend edges n hr hsz he g hlo hhi
    have he' : 0 ≤ extend.getD 0 := by
      cases extend with
      | none => simp
      | some a => exact he a rfl
    have hc := g.covers
    have hn : 0 < n := by
      rcases Nat.eq_zero_or_pos n with h0 | h0
      · exfalso
        rw [h0] at hc
        simp at hc
        linarith
      · exact h0
    have hmono : ∀ i j, i ≤ j → lowerEnd res n i ≤ lowerEnd res n j := fun i j h => lowerEnd_mono hr h
    have hz := lowerEnd_zero res n
    have hl := lowerEnd_last res n
    -- the last bin whose lower end is not above
    by_cases hlast : v = lowerEnd res n n
    · refine ⟨n - 1, (inBin_good hr g _).mpr ⟨by omega, ?_, .inr ⟨?_, by omega⟩⟩, ?_⟩
      · rw [hlast]; exact hmono _ _ (by omega)
      · rw [hlast]; congr 1; omega
      · intro j hj
        obtain ⟨j1, j2, j3⟩ := (inBin_good hr g j).mp hj
        rcases j3 with j3 | ⟨_, j3⟩
        · rw [hlast] at j3
          exact absurd (hmono (j + 1) n (by omega)) (not_le.mpr j3)
        · omega
    · have hvl : v < lowerEnd res n n := lt_of_le_of_ne (by rw [hl]; linarith) hlast
      have hv0 : lowerEnd res n 0 ≤ v := by rw [hz]; linarith
      have hfind : ∃ i, v < lowerEnd res n (i + 1) := ⟨n - 1, by
        have : n - 1 + 1 = n := by omega
        rw [this]; exact hvl⟩
      classical
      let i := Nat.find hfind
      have hi : v < lowerEnd res n (i + 1) := Nat.find_spec hfind
      have hin : i < n := by
        have : i ≤ n - 1 := Nat.find_le (by
          have : n - 1 + 1 = n := by omega
          rw [this]; exact hvl)
        omega
      have hlow : lowerEnd res n i ≤ v := by
        rcases Nat.eq_zero_or_pos i with h0 | h0
        · rw [h0]; exact hv0
        · have := Nat.find_min hfind (m := i - 1) (by omega)
          have e : i - 1 + 1 = i := by omega
          rw [e] at this
          exact not_lt.mp this
      refine ⟨i, (inBin_good hr g _).mpr ⟨hin, hlow, .inl hi⟩, ?_⟩
      intro j hj
      obtain ⟨j1, j2, j3⟩ := (inBin_good hr g j).mp hj
      have j4 : v < lowerEnd res n (j + 1) := by
        rcases j3 with j3 | ⟨j3, j5⟩
        · exact j3
        · rw [j5] at j3; exact absurd j3 hlast
      by_contra hne
      rcases Nat.lt_or_gt_of_ne hne with h | h
      · exact absurd (hmono (j + 1) i (by omega)) (not_le.mpr (lt_of_le_of_lt hlow j4))
      · exact absurd (hmono (i + 1) j (by omega)) (not_le.mpr (lt_of_le_of_lt j2 hi))
  have h1 : (0 : K) < d.nColumns * d.columnSize := mul_pos (by exact_mod_cast hd.columns) hd.columnSize
  have h2 : (0 : K) < d.nRows * d.rowSize := mul_pos (by exact_mod_cast hd.rows) hd.rowSize
  unfold OffSensor at hon
  push Not at hon
  rw [lowerEnd_zero, lowerEnd_zero, lowerEnd_last, lowerEnd_last] at hon
  obtain ⟨o1, o2, o3, o4⟩ := hon
  obtain ⟨i, hi, ui⟩ := hex hx h1 ex g1 o1 o2
  obtain ⟨j, hj, uj⟩ := hex hy h2 ey g2 o3 o4
  refine ⟨(i, j), ⟨hi, hj⟩, ?_⟩
  rintro ⟨i', j'⟩ ⟨k1, k2⟩
  rw [Prod.mk.injEq]
  exact ⟨ui i' k1, uj j' k2⟩

/-- C164: with the default resolution, the pixel size, and no extension, the bins are the pixels: a track in pixel (c, r) is in bin (c, r). -/
theorem C164_default (f : Scipy K) (d : Pixels K) (hd : Sensor d) (a : Args K) (s : Efficiency.Setup K) (hset : setupOf f d a = .ok s)
    (hres : a.resolution = (d.columnSize, d.rowSize)) (hext : a.extend = (none, none)) :
    s.edgesX.length = d.nColumns + 1 ∧ s.edgesY.length = d.nRows + 1 ∧
    ∀ (t : Efficiency.Row K) (c r : Nat), InPixel d c r (posX s t, posY s t) → TrackIn s c r t := by
  obtain ⟨nx, ny, g1, g2⟩ := C164_bins f d hd a s hset (by rw [hres]; exact hd.columnSize) (by rw [hres]; exact hd.rowSize)
    (by rw [hext]; simp) (by rw [hext]; simp)
  rw [hres, hext] at g1 g2
  have hn : ∀ {n m : Nat} {size : K} {edges : List K}, 0 < size → GoodBins (m * size) size none edges n →
      GoodBins (m * size) size none (histEdges (m * size) size none) (nBins (m * size) size none) → edges = histEdges (m * size) size none →
      n = m := by
    intro n m size edges hsz h h' e
    have hl := h.length
    rw [e, h'.length] at hl
    have : nBins (m * size) size none = m := by
      unfold nBins
      have : (m : K) * size / size = m := by field_simp
      rw [this, Int.ceil_natCast]
      simp
    omega
  have h1 : (0 : K) < d.nColumns * d.columnSize := mul_pos (by exact_mod_cast hd.columns) hd.columnSize
  have h2 : (0 : K) < d.nRows * d.rowSize := mul_pos (by exact_mod_cast hd.rows) hd.rowSize
  have hedges : s.edgesX = histEdges (d.nColumns * d.columnSize) d.columnSize none ∧ s.edgesY = histEdges (d.nRows * d.rowSize) d.rowSize none := by
    rw [setupOf_eq f hd a] at hset
    simp only [Except.ok.injEq] at hset
    subst hset
    simp only [hres, hext, and_self]
  have e1 := hn hd.columnSize g1 (histEdges_good hd.columnSize h1 (by simp)) hedges.1
  have e2 := hn hd.rowSize g2 (histEdges_good hd.rowSize h2 (by simp)) hedges.2
  subst e1; subst e2
  refine ⟨g1.length, g2.length, ?_⟩
  rintro t c r ⟨hc, hr, p1, p2, p3, p4⟩
  exact ⟨(inBin_good hd.columnSize g1 c).mpr ⟨hc, p1.le, .inl p2⟩, (inBin_good hd.rowSize g2 r).mpr ⟨hr, p3.le, .inl p4⟩⟩

/-! ### A concrete case -/

/-- A search through all points, and image points of all pixels. -/
def plain : Scipy ℚ where
  query ps pos := ps.findIdx fun p => ps.all fun q => decide (dist2 pos p ≤ dist2 pos q)
  leaves _ _ _ := true

theorem plain_query : QueryRight plain := by
  intro ps pos hne
  have hex : ∃ p ∈ ps, ∀ q ∈ ps, dist2 pos p ≤ dist2 pos q := by
    clear * - hne
    induction ps with
    | nil => exact absurd rfl hne
    | cons a ps ih =>
      by_cases h : ps = []
      · subst h; exact ⟨a, by simp, by simp⟩
      · obtain ⟨p, hp, hmin⟩ := ih h
        rcases le_total (dist2 pos a) (dist2 pos p) with hle | hle
        · exact ⟨a, by simp, fun q hq => by
            rcases List.mem_cons.mp hq with rfl | hq
            · exact le_rfl
            · exact hle.trans (hmin q hq)⟩
        · exact ⟨p, by simp [hp], fun q hq => by
            rcases List.mem_cons.mp hq with rfl | hq
            · exact hle
            · exact hmin q hq⟩
  obtain ⟨p, hp, hmin⟩ := hex
  have hlt : plain.query ps pos < ps.length := by
    apply List.findIdx_lt_length_of_exists
    exact ⟨p, hp, by simpa using hmin⟩
  refine ⟨ps[plain.query ps pos], List.getElem?_eq_getElem hlt, ?_⟩
  have hall := List.findIdx_getElem (w := hlt)
  intro q hq
  exact of_decide_eq_true (List.all_eq_true.mp hall q hq)

theorem plain_voronoi : VoronoiRight plain := fun _ _ _ _ _ => rfl

/-- 3 x 2 pixels of 10 x 20. -/
def small : Pixels ℚ := ⟨10, 20, 3, 2⟩

theorem small_sensor : Sensor small := ⟨by decide, by decide, by decide +kernel, by decide +kernel⟩

/-- Pixel (1, 0) is disabled. -/
def smallArgs : Args ℚ := ⟨(4, 20), (some 5, none), some fun c r => c == 1 && r == 0, (none, none), (0, 0), [], 1, id⟩

/-- Tracks in the pixels (0, 1), (1, 0) and outside of the sensor; 8 + 4 bins in x. -/
example : InPixel small 0 1 (-12, 3) ∧ InPixel small 1 0 (2, -5) ∧ OffSensor small (16, 3) := by
  unfold InPixel OffSensor lowerEnd small; norm_num

example : (setupOf plain small smallArgs).toOption.map (fun s => ([s.nearest (-12) 3, s.nearest 2 (-5), s.nearest 16 3], s.nPixels,
    [s.enabled (-12) 3, s.enabled 2 (-5), s.enabled 16 3])) = some ([1, 2, 29], 6, [true, false, false]) := by decide +kernel

example : (setupOf plain small smallArgs).toOption.map (fun s => (s.edgesX.length, s.edgesX.head?, s.edgesY)) =
    some (13, some (-24), [-20, 0, 20]) := by decide +kernel

end BTA.PixelTree.Props
