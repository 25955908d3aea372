import Verif.Spec.PixelTree
import Verif.Props.Dut
import Verif.Lemmas.InPixel
import Mathlib.Tactic.Linarith
import Mathlib.Tactic.Ring
import Mathlib.Tactic.Positivity

namespace BTA.PixelTree
open BTA.Dut BTA.Binning

variable {K : Type} [Field K] [LinearOrder K] [IsStrictOrderedRing K]

theorem mirrorLow_eq {e : K × K} (h : e.1 ≤ e.2) (v : K) : mirrorLow e v = 2 * e.1 - v := by
  unfold mirrorLow
  rw [max_eq_right h, min_eq_left h]
  ring

theorem mirrorHigh_eq {e : K × K} (h : e.1 ≤ e.2) (v : K) : mirrorHigh e v = 2 * e.2 - v := by
  unfold mirrorHigh
  rw [max_eq_right h, min_eq_left h]
  ring

/-- The extent is not empty. -/
def Proper (e : Extent K) : Prop := e.x.1 < e.x.2 ∧ e.y.1 < e.y.2

theorem mem_images {e : Extent K} {ps : List (K × K)} {q : K × K} (hp : Proper e) :
    q ∈ imagePoints e ps ↔ ∃ p ∈ ps, q = (p.1, 2 * e.y.2 - p.2) ∨ q = (p.1, 2 * e.y.1 - p.2) ∨ q = (2 * e.x.1 - p.1, p.2) ∨
      q = (2 * e.x.2 - p.1, p.2) := by
  unfold imagePoints
  simp only [List.mem_append, List.mem_map, mirrorLow_eq hp.1.le, mirrorLow_eq hp.2.le, mirrorHigh_eq hp.1.le, mirrorHigh_eq hp.2.le]
  constructor
  · rintro (((⟨p, h, rfl⟩ | ⟨p, h, rfl⟩) | ⟨p, h, rfl⟩) | ⟨p, h, rfl⟩)
    · exact ⟨p, h, .inl rfl⟩
    · exact ⟨p, h, .inr (.inl rfl)⟩
    · exact ⟨p, h, .inr (.inr (.inl rfl))⟩
    · exact ⟨p, h, .inr (.inr (.inr rfl))⟩
  · rintro ⟨p, h, rfl | rfl | rfl | rfl⟩
    · exact .inl (.inl (.inl ⟨p, h, rfl⟩))
    · exact .inl (.inl (.inr ⟨p, h, rfl⟩))
    · exact .inl (.inr ⟨p, h, rfl⟩)
    · exact .inr ⟨p, h, rfl⟩

/-- On the sensor an image point is farther than the point. -/
theorem image_farther {e : Extent K} {p q pos : K × K} (hp : Inside e p) (hpos : Inside e pos)
    (h : q = (p.1, 2 * e.y.2 - p.2) ∨ q = (p.1, 2 * e.y.1 - p.2) ∨ q = (2 * e.x.1 - p.1, p.2) ∨ q = (2 * e.x.2 - p.1, p.2)) :
    dist2 pos p < dist2 pos q := by
  obtain ⟨a1, a2, a3, a4⟩ := hp
  obtain ⟨b1, b2, b3, b4⟩ := hpos
  unfold dist2
  rcases h with rfl | rfl | rfl | rfl <;> simp only
  · nlinarith [mul_pos (sub_pos.mpr a4) (sub_pos.mpr b4)]
  · nlinarith [mul_pos (sub_pos.mpr a3) (sub_pos.mpr b3)]
  · nlinarith [mul_pos (sub_pos.mpr a1) (sub_pos.mpr b1)]
  · nlinarith [mul_pos (sub_pos.mpr a2) (sub_pos.mpr b2)]

/-- Outside of the sensor one of the images is closer than the point. -/
theorem image_closer {e : Extent K} {p pos : K × K} (hp : Inside e p) (hpos : Outside e pos) :
    ∃ q, (q = (p.1, 2 * e.y.2 - p.2) ∨ q = (p.1, 2 * e.y.1 - p.2) ∨ q = (2 * e.x.1 - p.1, p.2) ∨ q = (2 * e.x.2 - p.1, p.2)) ∧
      dist2 pos q < dist2 pos p := by
  obtain ⟨a1, a2, a3, a4⟩ := hp
  unfold dist2
  rcases hpos with h | h | h | h
  · exact ⟨_, .inr (.inr (.inl rfl)), by simp only; nlinarith [mul_pos (sub_pos.mpr a1) (sub_pos.mpr h)]⟩
  · exact ⟨_, .inr (.inr (.inr rfl)), by simp only; nlinarith [mul_pos (sub_pos.mpr a2) (sub_pos.mpr h)]⟩
  · exact ⟨_, .inr (.inl rfl), by simp only; nlinarith [mul_pos (sub_pos.mpr a3) (sub_pos.mpr h)]⟩
  · exact ⟨_, .inl rfl, by simp only; nlinarith [mul_pos (sub_pos.mpr a4) (sub_pos.mpr h)]⟩

theorem tree_mem {f : Scipy K} {e : Extent K} {ps : List (K × K)} {q : K × K} : q ∈ treePoints f e ps ↔
    q ∈ ps ∨ q ∈ imagePoints e (ps.filter (f.leaves ps e)) := by
  unfold treePoints; simp

/-- On the sensor the closest point is a pixel, the closest one. -/
theorem closest_inside {f : Scipy K} {e : Extent K} {ps : List (K × K)} (hp : Proper e) (hps : ∀ p ∈ ps, Inside e p) {pos : K × K}
    (hpos : Inside e pos) {i : Nat} (h : ClosestIndex (treePoints f e ps) pos i) : i < ps.length ∧ ClosestIndex ps pos i := by
  obtain ⟨p, hi, hmin⟩ := h
  have hlt : i < ps.length := by
    by_contra hge
    push Not at hge
    have hq : p ∈ imagePoints e (ps.filter (f.leaves ps e)) := by
      unfold treePoints at hi
      rw [List.getElem?_append_right hge] at hi
      exact List.mem_of_getElem? hi
    obtain ⟨q, hq1, hq2⟩ := (mem_images hp).mp hq
    have hq3 := (List.mem_filter.mp hq1).1
    have := image_farther (hps q hq3) hpos hq2
    exact absurd (hmin q (tree_mem.mpr (.inl hq3))) (not_le.mpr this)
  refine ⟨hlt, p, ?_, fun q hq => hmin q (tree_mem.mpr (.inl hq))⟩
  unfold treePoints at hi
  rwa [List.getElem?_append_left hlt] at hi

/-- Outside of the sensor the closest point is not a pixel. -/
theorem closest_outside {f : Scipy K} (hv : VoronoiRight f) {e : Extent K} {ps : List (K × K)} (hp : Proper e) (hps : ∀ p ∈ ps, Inside e p)
    {pos : K × K} (hpos : Outside e pos) {i : Nat} (h : ClosestIndex (treePoints f e ps) pos i) : ps.length ≤ i := by
  by_contra hlt
  push Not at hlt
  obtain ⟨p, hi, hmin⟩ := h
  unfold treePoints at hi
  rw [List.getElem?_append_left hlt] at hi
  have hmem := List.mem_of_getElem? hi
  have hl := hv ps e p hmem ⟨pos, hpos, fun q hq => hmin q (tree_mem.mpr (.inl hq))⟩
  obtain ⟨q, hq, hlt2⟩ := image_closer (hps p hmem) hpos
  have hq2 : q ∈ imagePoints e (ps.filter (f.leaves ps e)) := (mem_images hp).mpr ⟨p, List.mem_filter.mpr ⟨hmem, hl⟩, hq⟩
  exact absurd (hmin q (tree_mem.mpr (.inr hq2))) (not_le.mpr hlt2)

/-- The centre of a pixel. -/
def center (d : Pixels K) (c r : Nat) : K × K :=
  (lowerEnd d.columnSize d.nColumns c + d.columnSize / 2, lowerEnd d.rowSize d.nRows r + d.rowSize / 2)

theorem pixelCenters_eq {d : Pixels K} (hs : Sensor d) :
    pixelCenters d = .ok ((List.range (d.nColumns * d.nRows)).map fun i => center d (i / d.nRows) (i % d.nRows)) := by
  unfold pixelCenters indexToLocal
  have hall : ((pixelIndices d).all fun p => (1/2 ≤ p.1 ∧ p.1 ≤ d.nColumns + 1/2) ∧ (1/2 ≤ p.2 ∧ p.2 ≤ d.nRows + 1/2)) = true := by
    rw [List.all_eq_true]
    intro p hp
    unfold pixelIndices at hp
    obtain ⟨i, hi, rfl⟩ := List.mem_map.mp hp
    have hi' : i < d.nColumns * d.nRows := List.mem_range.mp hi
    have h1 : i / d.nRows + 1 ≤ d.nColumns := Nat.div_lt_of_lt_mul (by rw [Nat.mul_comm]; exact hi')
    have h2 : i % d.nRows + 1 ≤ d.nRows := Nat.mod_lt _ hs.rows
    have h1' : ((i / d.nRows : Nat) : K) + 1 ≤ d.nColumns := by exact_mod_cast h1
    have h2' : ((i % d.nRows : Nat) : K) + 1 ≤ d.nRows := by exact_mod_cast h2
    have h3 : (0 : K) ≤ ((i / d.nRows : Nat) : K) := Nat.cast_nonneg _
    have h4 : (0 : K) ≤ ((i % d.nRows : Nat) : K) := Nat.cast_nonneg _
    simp only [decide_eq_true_eq]
    refine ⟨⟨by linarith, by linarith⟩, by linarith, by linarith⟩
  rw [if_pos hall]
  simp only [pixelIndices, List.map_map, Except.ok.injEq]
  apply List.map_congr_left
  intro i _
  simp only [Function.comp, center, lowerEnd, Prod.mk.injEq]
  constructor <;> ring

/-- The extent of the sensor. -/
def extentOf (d : Pixels K) : Extent K :=
  ⟨(-(d.nColumns * d.columnSize / 2), d.nColumns * d.columnSize / 2), (-(d.nRows * d.rowSize / 2), d.nRows * d.rowSize / 2)⟩

theorem extent_proper {d : Pixels K} (hs : Sensor d) : Proper (extentOf d) := by
  have h1 : (0 : K) < d.nColumns * d.columnSize := mul_pos (by exact_mod_cast hs.columns) hs.columnSize
  have h2 : (0 : K) < d.nRows * d.rowSize := mul_pos (by exact_mod_cast hs.rows) hs.rowSize
  exact ⟨by simp only [extentOf]; linarith, by simp only [extentOf]; linarith⟩

theorem outside_iff (d : Pixels K) (pos : K × K) : Outside (extentOf d) pos ↔ OffSensor d pos := by
  unfold Outside OffSensor extentOf lowerEnd
  have a1 : (-(d.nColumns * d.columnSize / 2) : K) = ((0 : Nat) - (d.nColumns : K) / 2) * d.columnSize := by push_cast; ring
  have a2 : (d.nColumns * d.columnSize / 2 : K) = (d.nColumns - (d.nColumns : K) / 2) * d.columnSize := by ring
  have a3 : (-(d.nRows * d.rowSize / 2) : K) = ((0 : Nat) - (d.nRows : K) / 2) * d.rowSize := by push_cast; ring
  have a4 : (d.nRows * d.rowSize / 2 : K) = (d.nRows - (d.nRows : K) / 2) * d.rowSize := by ring
  simp only
  rw [← a1, ← a2, ← a3, ← a4]

theorem lowerEnd_mono {size : K} (hs : 0 < size) {n i j : Nat} (h : i ≤ j) : lowerEnd size n i ≤ lowerEnd size n j := by
  unfold lowerEnd
  have : (i : K) ≤ j := by exact_mod_cast h
  nlinarith

theorem lowerEnd_succ (size : K) (n i : Nat) : lowerEnd size n (i + 1) = lowerEnd size n i + size := by
  unfold lowerEnd; push_cast; ring

theorem lowerEnd_zero (size : K) (n : Nat) : lowerEnd size n 0 = -(n * size / 2) := by
  unfold lowerEnd; push_cast; ring

theorem lowerEnd_last (size : K) (n : Nat) : lowerEnd size n n = n * size / 2 := by
  unfold lowerEnd; ring

theorem center_inPixel {d : Pixels K} (hs : Sensor d) {c r : Nat} (hc : c < d.nColumns) (hr : r < d.nRows) : InPixel d c r (center d c r) := by
  have := hs.columnSize
  have := hs.rowSize
  refine ⟨hc, hr, ?_, ?_, ?_, ?_⟩ <;> simp only [center, lowerEnd_succ] <;> linarith

theorem inPixel_inside {d : Pixels K} (hs : Sensor d) {c r : Nat} {pos : K × K} (h : InPixel d c r pos) : Inside (extentOf d) pos := by
  obtain ⟨hc, hr, h1, h2, h3, h4⟩ := h
  have a1 := lowerEnd_mono hs.columnSize (n := d.nColumns) (Nat.zero_le c)
  have a2 := lowerEnd_mono hs.columnSize (n := d.nColumns) (show c + 1 ≤ d.nColumns from hc)
  have a3 := lowerEnd_mono hs.rowSize (n := d.nRows) (Nat.zero_le r)
  have a4 := lowerEnd_mono hs.rowSize (n := d.nRows) (show r + 1 ≤ d.nRows from hr)
  rw [lowerEnd_zero] at a1 a3
  rw [lowerEnd_last] at a2 a4
  refine ⟨?_, ?_, ?_, ?_⟩ <;> simp only [extentOf] <;> linarith

/-- One direction: the own centre is closer than another one. -/
theorem closer_center {size v : K} (hs : 0 < size) {n i j : Nat} (h1 : lowerEnd size n i < v) (h2 : v < lowerEnd size n (i + 1)) :
    (v - (lowerEnd size n i + size / 2)) ^ 2 ≤ (v - (lowerEnd size n j + size / 2)) ^ 2 ∧
      (i ≠ j → (v - (lowerEnd size n i + size / 2)) ^ 2 < (v - (lowerEnd size n j + size / 2)) ^ 2) := by
  rw [lowerEnd_succ] at h2
  have key : i ≠ j → (v - (lowerEnd size n i + size / 2)) ^ 2 < (v - (lowerEnd size n j + size / 2)) ^ 2 := by
    intro hne
    rcases Nat.lt_or_gt_of_ne hne with h | h
    · have := lowerEnd_mono hs (n := n) (show i + 1 ≤ j from h)
      rw [lowerEnd_succ] at this
      nlinarith
    · have := lowerEnd_mono hs (n := n) (show j + 1 ≤ i from h)
      rw [lowerEnd_succ] at this
      nlinarith
  refine ⟨?_, key⟩
  by_cases h : i = j
  · rw [h]
  · exact (key h).le

theorem closer_pixel {d : Pixels K} (hs : Sensor d) {c r c' r' : Nat} {pos : K × K} (h : InPixel d c r pos) (hne : (c, r) ≠ (c', r')) :
    dist2 pos (center d c r) < dist2 pos (center d c' r') := by
  obtain ⟨hc, hr, h1, h2, h3, h4⟩ := h
  have a := closer_center hs.columnSize (j := c') h1 h2
  have b := closer_center hs.rowSize (j := r') h3 h4
  unfold dist2 center
  simp only
  by_cases e : c = c'
  · have : r ≠ r' := fun e2 => hne (by rw [e, e2])
    linarith [a.1, b.2 this]
  · linarith [a.2 e, b.1]

theorem index_div {n c r : Nat} (hr : r < n) : (c * n + r) / n = c ∧ (c * n + r) % n = r := by
  constructor
  · rw [Nat.mul_comm, Nat.mul_add_div (by omega), Nat.div_eq_of_lt hr]; rfl
  · rw [Nat.mul_comm, Nat.mul_add_mod, Nat.mod_eq_of_lt hr]

theorem index_lt {nc nr c r : Nat} (hc : c < nc) (hr : r < nr) : c * nr + r < nc * nr := by
  calc c * nr + r < c * nr + nr := by omega
    _ = (c + 1) * nr := by ring
    _ ≤ nc * nr := Nat.mul_le_mul_right _ hc

/-- Among the pixels the one with the position inside is the closest one. -/
theorem closest_pixel {d : Pixels K} (hs : Sensor d) {c r : Nat} {pos : K × K} (h : InPixel d c r pos) {i : Nat}
    (hi : ClosestIndex ((List.range (d.nColumns * d.nRows)).map fun i => center d (i / d.nRows) (i % d.nRows)) pos i) :
    i = c * d.nRows + r := by
  obtain ⟨p, hp, hmin⟩ := hi
  have hc := h.1
  have hr := h.2.1
  have hlt : i < d.nColumns * d.nRows := by
    have := (List.getElem?_eq_some_iff.mp hp).1
    simpa using this
  rw [List.getElem?_map, List.getElem?_range hlt] at hp
  simp only [Option.map_some, Option.some.injEq] at hp
  have hown : center d c r ∈ (List.range (d.nColumns * d.nRows)).map fun i => center d (i / d.nRows) (i % d.nRows) := by
    refine List.mem_map.mpr ⟨c * d.nRows + r, List.mem_range.mpr (index_lt hc hr), ?_⟩
    rw [(index_div hr).1, (index_div hr).2]
  have hle := hmin _ hown
  by_contra hne
  have hpair : (c, r) ≠ (i / d.nRows, i % d.nRows) := by
    intro e
    simp only [Prod.mk.injEq] at e
    apply hne
    rw [e.1, e.2, Nat.mul_comm]
    exact (Nat.div_add_mod i d.nRows).symm
  have := closer_pixel hs h hpair
  rw [hp] at this
  exact absurd hle (not_le.mpr this)

/-- The setup of a sensor. -/
theorem setupOf_eq [FloorRing K] (f : Scipy K) {d : Pixels K} (hs : Sensor d) (a : Args K) :
    setupOf f d a = .ok {
      edgesX := histEdges (d.nColumns * d.columnSize) a.resolution.1 a.extend.1
      edgesY := histEdges (d.nRows * d.rowSize) a.resolution.2 a.extend.2
      pixelSize := (d.columnSize, d.rowSize)
      cut := a.cut
      offset := a.offset
      enabled := isEnabled f d (treePoints f (extentOf d)
        ((List.range (d.nColumns * d.nRows)).map fun i => center d (i / d.nRows) (i % d.nRows))) a.mask
      nearest := fun x y => f.query (treePoints f (extentOf d)
        ((List.range (d.nColumns * d.nRows)).map fun i => center d (i / d.nRows) (i % d.nRows))) (x, y)
      nPixels := d.nColumns * d.nRows
      regions := a.regions
      minimumTrackDensity := a.minimumTrackDensity
      sqrt := a.sqrt } := by
  unfold setupOf
  rw [Props.xExtent_eq d hs.columnSize, Props.yExtent_eq d hs.rowSize, pixelCenters_eq hs]
  simp only [extentOf, List.length_map, List.length_range]
  have e1 : (d.nColumns * d.columnSize / 2 - -(d.nColumns * d.columnSize / 2) : K) = d.nColumns * d.columnSize := by ring
  have e2 : (d.nRows * d.rowSize / 2 - -(d.nRows * d.rowSize / 2) : K) = d.nRows * d.rowSize := by ring
  rw [e1, e2]

theorem centers_inside {d : Pixels K} (hs : Sensor d) :
    ∀ p ∈ (List.range (d.nColumns * d.nRows)).map fun i => center d (i / d.nRows) (i % d.nRows), Inside (extentOf d) p := by
  intro p hp
  obtain ⟨i, hi, rfl⟩ := List.mem_map.mp hp
  have hi' : i < d.nColumns * d.nRows := List.mem_range.mp hi
  exact inPixel_inside hs (center_inPixel hs (Nat.div_lt_of_lt_mul (by rw [Nat.mul_comm]; exact hi')) (Nat.mod_lt _ hs.rows))

/-- The index that `calculate_efficiency` assigns to a position. -/
theorem nearest_of {f : Scipy K} [FloorRing K] (hq : QueryRight f) (hv : VoronoiRight f) {d : Pixels K} (hs : Sensor d) {a : Args K}
    {s : Efficiency.Setup K} (h : setupOf f d a = .ok s) (pos : K × K) :
    (∀ c r, InPixel d c r pos → s.nearest pos.1 pos.2 = c * d.nRows + r) ∧ (OffSensor d pos → d.nColumns * d.nRows ≤ s.nearest pos.1 pos.2) := by
  rw [setupOf_eq f hs a] at h
  simp only [Except.ok.injEq] at h
  subst h
  simp only
  have hpos : 0 < d.nColumns * d.nRows := Nat.mul_pos hs.columns hs.rows
  have hne : treePoints f (extentOf d) ((List.range (d.nColumns * d.nRows)).map fun i => center d (i / d.nRows) (i % d.nRows)) ≠ [] := by
    unfold treePoints
    intro hc
    have hl := congrArg List.length (List.append_eq_nil_iff.mp hc).1
    rw [List.length_map, List.length_range, List.length_nil] at hl
    omega
  have hcl := hq _ pos hne
  constructor
  · intro c r hin
    exact closest_pixel hs hin (closest_inside (extent_proper hs) (centers_inside hs) (inPixel_inside hs hin) hcl).2
  · intro hoff
    have := closest_outside hv (extent_proper hs) (centers_inside hs) ((outside_iff d pos).mpr hoff) hcl
    simpa using this

theorem mem_enabled {d : Pixels K} {disabled : Nat → Nat → Bool} {i : Nat} :
    i ∈ enabledIndices d disabled ↔ i < d.nColumns * d.nRows ∧ disabled (i / d.nRows) (i % d.nRows) = false := by
  have key : ∀ k, k % d.nRows + (k / d.nRows) * d.nRows = k := by
    intro k
    rw [Nat.mul_comm, Nat.add_comm]
    exact Nat.div_add_mod k d.nRows
  unfold enabledIndices
  simp only [List.mem_map, List.mem_filter, List.mem_range, key, exists_eq_right, beq_iff_eq]

/-! ### The edges -/

variable [FloorRing K]

/-- Number of bins in one direction. -/
def nBins (size res : K) (extend : Option K) : Nat := ⌈size / res⌉.toNat + 2 * (extend.elim 0 fun a => ⌈a / res⌉.toNat)

theorem histSize_eq {size res : K} (hr : 0 < res) (hs : 0 < size) {extend : Option K} (he : ∀ a, extend = some a → 0 ≤ a) :
    histSize size res extend = (nBins size res extend : K) * res := by
  have h0 : ((⌈size / res⌉.toNat : Nat) : K) = ⌈size / res⌉ := by
    have : (0 : Int) ≤ ⌈size / res⌉ := Int.ceil_nonneg (by positivity)
    have h := Int.toNat_of_nonneg this
    calc ((⌈size / res⌉.toNat : Nat) : K) = (((⌈size / res⌉.toNat : Nat) : Int) : K) := by push_cast; rfl
      _ = _ := by rw [h]
  cases extend with
  | none => simp [histSize, nBins, h0]
  | some a =>
    have ha := he a rfl
    have h1 : ((⌈a / res⌉.toNat : Nat) : K) = ⌈a / res⌉ := by
      have : (0 : Int) ≤ ⌈a / res⌉ := Int.ceil_nonneg (by positivity)
      have h := Int.toNat_of_nonneg this
      calc ((⌈a / res⌉.toNat : Nat) : K) = (((⌈a / res⌉.toNat : Nat) : Int) : K) := by push_cast; rfl
        _ = _ := by rw [h]
    simp only [histSize, nBins, Option.elim_some]
    push_cast
    rw [h0, h1]
    ring

theorem nBins_pos {size res : K} (hr : 0 < res) (hs : 0 < size) (extend : Option K) : 0 < nBins size res extend := by
  have : 0 < ⌈size / res⌉ := Int.ceil_pos.mpr (div_pos hs hr)
  unfold nBins
  omega

theorem histEdges_get {size res : K} (hr : 0 < res) (hs : 0 < size) {extend : Option K} (he : ∀ a, extend = some a → 0 ≤ a) (i : Nat) :
    (histEdges size res extend)[i]? = if i < nBins size res extend + 1 then some (lowerEnd res (nBins size res extend) i) else none := by
  unfold histEdges
  rw [histSize_eq hr hs he]
  have hq : (nBins size res extend : K) * res / res = nBins size res extend := by field_simp
  rw [hq]
  have hfl : ⌊(nBins size res extend : K)⌋.toNat = nBins size res extend := by rw [Int.floor_natCast]; rfl
  rw [hfl]
  have hn : (nBins size res extend : K) ≠ 0 := by
    have := nBins_pos hr hs extend
    exact_mod_cast this.ne'
  unfold linspace
  rw [List.getElem?_map]
  by_cases hi : i < nBins size res extend + 1
  · rw [List.getElem?_range hi, if_pos hi]
    simp only [Option.map_some, Option.some.injEq, lowerEnd]
    field_simp
    ring
  · rw [if_neg hi, List.getElem?_eq_none (by simp; omega)]
    rfl

theorem histEdges_length {size res : K} (hr : 0 < res) (hs : 0 < size) {extend : Option K} (he : ∀ a, extend = some a → 0 ≤ a) :
    (histEdges size res extend).length = nBins size res extend + 1 := by
  unfold histEdges linspace
  rw [histSize_eq hr hs he]
  have hq : (nBins size res extend : K) * res / res = nBins size res extend := by field_simp
  rw [hq, Int.floor_natCast]
  simp

end BTA.PixelTree
