import Verif.Spec.Correlate
import Verif.Lemmas.Chunks
import Verif.Props.Dut
/-
Lemmas for `correlate`.
-/
namespace BTA.Corr
open BTA.Dut BTA.Geo BTA.Spec BTA.Corr.Spec

/-! ### Positions -/

theorem globalPositions_eq (p : Plane) (b : Bool) (chunk : List Row) (ps : List Vec3) (h : globalPositions p b chunk = .ok ps) :
    ps = chunk.map (globalPos p b) := by
  unfold globalPositions at h
  split at h
  · next hb =>
    have := BTA.Props.C30_formula _ _ _ _ h
    rw [this, List.map_map]
    apply List.map_congr_left
    intro r _
    simp [globalPos, toGlobal, localPos, hb]
  · next hb =>
    unfold indexToGlobal at h
    split at h
    · cases h
    · next qs hq =>
      have h1 := BTA.Props.C34_position _ _ _ hq
      have h2 := BTA.Props.C30_formula _ _ _ _ h
      rw [h2, h1, List.map_map, List.map_map, List.map_map]
      apply List.map_congr_left
      intro r _
      simp [globalPos, toGlobal, localPos, hb]

/-- Positions are used as they are; indices have to be on the sensor. -/
def Readable (p : Plane) (b : Bool) (r : Row) : Prop := b = true ∨ OnSensor p (localPos p b r)

theorem globalPositions_ok (p : Plane) (hp : Proper p) (b : Bool) (chunk : List Row) (h : ∀ r ∈ chunk, Readable p b r) :
    globalPositions p b chunk = .ok (chunk.map (globalPos p b)) := by
  cases hg : globalPositions p b chunk with
  | ok ps => rw [globalPositions_eq p b chunk ps hg]
  | error e =>
    exfalso
    unfold globalPositions at hg
    split at hg
    · obtain ⟨-, -, q, hq, hz⟩ := (BTA.Props.C30_error_iff _ _ _ _).mp hg
      obtain ⟨r, -, rfl⟩ := List.mem_map.mp hq
      have e0 : (![r.coord.1, r.coord.2, 0] : Vec3) 2 = 0 := rfl
      rw [e0, abs_zero] at hz
      norm_num at hz
    · next hb =>
      obtain ⟨out, ho⟩ := BTA.Props.C34_global_exists p.pixels p.align {} (chunk.map Row.coord) (by
        intro q hq
        obtain ⟨r, hr, rfl⟩ := List.mem_map.mp hq
        obtain ⟨h1, h2⟩ := (h r hr).resolve_left hb
        have c := hp.column
        have d := hp.row
        simp only [localPos, hb, if_false, Bool.false_eq_true] at h1 h2
        rw [abs_le] at h1 h2
        refine ⟨⟨?_, ?_⟩, ?_, ?_⟩
        · by_contra hn; push Not at hn; nlinarith
        · by_contra hn; push Not at hn; nlinarith
        · by_contra hn; push Not at hn; nlinarith
        · by_contra hn; push Not at hn; nlinarith)
      rw [ho] at hg
      cases hg

/-! ### Extent of the sensor -/

/-- Half of the size of the sensor along a global axis. -/
noncomputable def halfSize (p : Plane) (k : Fin 3) : ℝ :=
  |rotationMatrix p.align.alpha p.align.beta p.align.gamma k 0| * (p.pixels.nColumns * p.pixels.columnSize / 2) +
  |rotationMatrix p.align.alpha p.align.beta p.align.gamma k 1| * (p.pixels.nRows * p.pixels.rowSize / 2)

theorem toGlobal_coord (p : Plane) (q : ℝ × ℝ) (k : Fin 3) :
    toGlobal p q k = rotationMatrix p.align.alpha p.align.beta p.align.gamma k 0 * q.1 +
      rotationMatrix p.align.alpha p.align.beta p.align.gamma k 1 * q.2 + ![p.align.x, p.align.y, p.align.z] k := by
  unfold toGlobal
  rw [Pi.add_apply]
  congr 1
  simp [Matrix.mulVec, dotProduct, Fin.sum_univ_succ]

theorem minmax4 (a b t : ℝ) :
    min (min (min (t - a - b) (t - a + b)) (t + a - b)) (t + a + b) = t - (|a| + |b|) ∧
    max (max (max (t - a - b) (t - a + b)) (t + a - b)) (t + a + b) = t + (|a| + |b|) := by
  rcases abs_cases a with ⟨h1, h2⟩ | ⟨h1, h2⟩ <;> rcases abs_cases b with ⟨h3, h4⟩ | ⟨h3, h4⟩ <;> rw [h1, h3] <;>
    constructor <;> simp only [min_def, max_def] <;> split_ifs <;> linarith

theorem globalExtent_eq (p : Plane) (hp : Proper p) (k : Fin 3) :
    globalExtent p k = .ok (![p.align.x, p.align.y, p.align.z] k - halfSize p k, ![p.align.x, p.align.y, p.align.z] k + halfSize p k) := by
  have hn : (0 : ℝ) ≤ p.pixels.nColumns := Nat.cast_nonneg _
  have hm : (0 : ℝ) ≤ p.pixels.nRows := Nat.cast_nonneg _
  have key : globalPositions p false ((corners p.pixels).map fun q => ⟨0, q⟩) =
      .ok (((corners p.pixels).map fun q => (⟨0, q⟩ : Row)).map (globalPos p false)) := by
    apply globalPositions_ok p hp
    intro r hr
    obtain ⟨q, hq, rfl⟩ := List.mem_map.mp hr
    have c := hp.column
    have d := hp.row
    simp only [corners, List.mem_cons, List.not_mem_nil, or_false] at hq
    refine .inr ?_
    simp only [OnSensor, localPos, Bool.false_eq_true, if_false]
    rcases hq with rfl | rfl | rfl | rfl <;> refine ⟨?_, ?_⟩ <;> rw [abs_le] <;> constructor <;> dsimp only <;> nlinarith
  unfold globalPositions at key
  simp only [Bool.false_eq_true, if_false, List.map_map] at key
  have e : (corners p.pixels).map (Row.coord ∘ fun q => (⟨0, q⟩ : Row)) = corners p.pixels := by
    conv_rhs => rw [← List.map_id (corners p.pixels)]
    rfl
  rw [e] at key
  unfold globalExtent
  rw [key]
  have hc : ∀ q : ℝ × ℝ, globalPos p false ⟨0, q⟩ k = rotationMatrix p.align.alpha p.align.beta p.align.gamma k 0 * (p.pixels.columnSize * (q.1 - (p.pixels.nColumns + 1) / 2)) +
      rotationMatrix p.align.alpha p.align.beta p.align.gamma k 1 * (p.pixels.rowSize * (q.2 - (p.pixels.nRows + 1) / 2)) +
      ![p.align.x, p.align.y, p.align.z] k := by
    intro q
    unfold globalPos
    rw [toGlobal_coord]
    simp [localPos]
  simp only [corners, List.map_cons, List.map_nil, List.tail_cons, List.headD_cons, List.foldl_cons, List.foldl_nil, Function.comp_apply, hc]
  have hw : (0 : ℝ) ≤ p.pixels.nColumns * p.pixels.columnSize / 2 := by have := hp.column; positivity
  have hh : (0 : ℝ) ≤ p.pixels.nRows * p.pixels.rowSize / 2 := by have := hp.row; positivity
  have := minmax4 (rotationMatrix p.align.alpha p.align.beta p.align.gamma k 0 * (p.pixels.nColumns * p.pixels.columnSize / 2))
    (rotationMatrix p.align.alpha p.align.beta p.align.gamma k 1 * (p.pixels.nRows * p.pixels.rowSize / 2)) (![p.align.x, p.align.y, p.align.z] k)
  rw [abs_mul, abs_mul, abs_of_nonneg hw, abs_of_nonneg hh] at this
  unfold halfSize
  rw [← this.1, ← this.2]
  generalize rotationMatrix p.align.alpha p.align.beta p.align.gamma k 0 = R0
  generalize rotationMatrix p.align.alpha p.align.beta p.align.gamma k 1 = R1
  generalize ![p.align.x, p.align.y, p.align.z] k = t
  have e1 : R0 * (p.pixels.columnSize * (1 / 2 - (p.pixels.nColumns + 1) / 2)) + R1 * (p.pixels.rowSize * (1 / 2 - (p.pixels.nRows + 1) / 2)) + t =
      t - R0 * (p.pixels.nColumns * p.pixels.columnSize / 2) - R1 * (p.pixels.nRows * p.pixels.rowSize / 2) := by ring
  have e2 : R0 * (p.pixels.columnSize * (1 / 2 - (p.pixels.nColumns + 1) / 2)) + R1 * (p.pixels.rowSize * (p.pixels.nRows + 1 / 2 - (p.pixels.nRows + 1) / 2)) + t =
      t - R0 * (p.pixels.nColumns * p.pixels.columnSize / 2) + R1 * (p.pixels.nRows * p.pixels.rowSize / 2) := by ring
  have e3 : R0 * (p.pixels.columnSize * (p.pixels.nColumns + 1 / 2 - (p.pixels.nColumns + 1) / 2)) + R1 * (p.pixels.rowSize * (1 / 2 - (p.pixels.nRows + 1) / 2)) + t =
      t + R0 * (p.pixels.nColumns * p.pixels.columnSize / 2) - R1 * (p.pixels.nRows * p.pixels.rowSize / 2) := by ring
  have e4 : R0 * (p.pixels.columnSize * (p.pixels.nColumns + 1 / 2 - (p.pixels.nColumns + 1) / 2)) +
      R1 * (p.pixels.rowSize * (p.pixels.nRows + 1 / 2 - (p.pixels.nRows + 1) / 2)) + t =
      t + R0 * (p.pixels.nColumns * p.pixels.columnSize / 2) + R1 * (p.pixels.nRows * p.pixels.rowSize / 2) := by ring
  rw [e1, e2, e3, e4]

theorem abs_le_halfSize (p : Plane) (q : ℝ × ℝ) (h : OnSensor p q) (k : Fin 3) :
    |toGlobal p q k - ![p.align.x, p.align.y, p.align.z] k| ≤ halfSize p k := by
  rw [toGlobal_coord, add_sub_cancel_right]
  refine le_trans (abs_add_le _ _) ?_
  unfold halfSize
  rw [abs_mul, abs_mul]
  exact add_le_add (mul_le_mul_of_nonneg_left h.1 (abs_nonneg _)) (mul_le_mul_of_nonneg_left h.2 (abs_nonneg _))

theorem extended_iff (p : Plane) (hp : Proper p) (k : Fin 3) :
    Extended p k ↔ rotationMatrix p.align.alpha p.align.beta p.align.gamma k 0 ≠ 0 ∨ rotationMatrix p.align.alpha p.align.beta p.align.gamma k 1 ≠ 0 := by
  constructor
  · rintro ⟨a, b, -, -, h⟩
    by_contra hn
    push Not at hn
    apply h
    rw [toGlobal_coord, toGlobal_coord, hn.1, hn.2]
    ring
  · have c : (0 : ℝ) < p.pixels.nColumns * p.pixels.columnSize / 2 := by
      have := hp.column; have : (0 : ℝ) < p.pixels.nColumns := Nat.cast_pos.mpr hp.columns; positivity
    have d : (0 : ℝ) < p.pixels.nRows * p.pixels.rowSize / 2 := by
      have := hp.row; have : (0 : ℝ) < p.pixels.nRows := Nat.cast_pos.mpr hp.rows; positivity
    rintro (h | h)
    · refine ⟨(0, 0), (p.pixels.nColumns * p.pixels.columnSize / 2, 0), ⟨by simpa using c.le, by simpa using d.le⟩,
        ⟨by rw [abs_of_pos c], by simpa using d.le⟩, ?_⟩
      rw [toGlobal_coord, toGlobal_coord]
      intro he
      have : rotationMatrix p.align.alpha p.align.beta p.align.gamma k 0 * (p.pixels.nColumns * p.pixels.columnSize / 2) = 0 := by
        dsimp only at he; linarith
      rcases mul_eq_zero.mp this with h' | h'
      · exact h h'
      · exact absurd h' (ne_of_gt c)
    · refine ⟨(0, 0), (0, p.pixels.nRows * p.pixels.rowSize / 2), ⟨by simpa using c.le, by simpa using d.le⟩,
        ⟨by simpa using c.le, by rw [abs_of_pos d]⟩, ?_⟩
      rw [toGlobal_coord, toGlobal_coord]
      intro he
      have : rotationMatrix p.align.alpha p.align.beta p.align.gamma k 1 * (p.pixels.nRows * p.pixels.rowSize / 2) = 0 := by
        dsimp only at he; linarith
      rcases mul_eq_zero.mp this with h' | h'
      · exact h h'
      · exact absurd h' (ne_of_gt d)

theorem abs_lt_halfSize (p : Plane) (hp : Proper p) (q : ℝ × ℝ) (h : InsideSensor p q) (k : Fin 3) (hk : Extended p k) :
    |toGlobal p q k - ![p.align.x, p.align.y, p.align.z] k| < halfSize p k := by
  rw [toGlobal_coord, add_sub_cancel_right]
  refine lt_of_le_of_lt (abs_add_le _ _) ?_
  unfold halfSize
  rw [abs_mul, abs_mul]
  rcases (extended_iff p hp k).mp hk with h0 | h0
  · exact add_lt_add_of_lt_of_le (mul_lt_mul_of_pos_left h.1 (abs_pos.mpr h0)) (mul_le_mul_of_nonneg_left h.2.le (abs_nonneg _))
  · exact add_lt_add_of_le_of_lt (mul_le_mul_of_nonneg_left h.1.le (abs_nonneg _)) (mul_lt_mul_of_pos_left h.2 (abs_pos.mpr h0))

theorem axis_eq (p : Plane) (hp : Proper p) (k : Fin 3) (c res : ℝ) :
    axis p k c res = .ok ⟨c - ⌈2 * halfSize p k / res⌉₊ * res / 2, ⌈2 * halfSize p k / res⌉₊⟩ := by
  unfold axis
  rw [globalExtent_eq p hp k]
  dsimp only
  have e : ![p.align.x, p.align.y, p.align.z] k + halfSize p k - (![p.align.x, p.align.y, p.align.z] k - halfSize p k) = 2 * halfSize p k := by ring
  rw [e]

/-! ### One pair of chunks -/

/-- The hit of a row. -/
noncomputable def hitOf (p : Plane) (b : Bool) (a : Axes) (res : ℝ × ℝ) (r : Row) : Hit :=
  ⟨r.ev, toIndex a.x.start res.1 (globalPos p b r 0), toIndex a.y.start res.2 (globalPos p b r 1)⟩

theorem toHits_map (p : Plane) (b : Bool) (a : Axes) (res : ℝ × ℝ) (chunk : List Row) :
    toHits a res chunk (chunk.map (globalPos p b)) = chunk.map (hitOf p b a res) := by
  unfold toHits
  induction chunk with
  | nil => rfl
  | cons r l ih => rw [List.map_cons, List.zipWith_cons_cons, ih]; rfl

/-- All indices of the pair are in the histograms. -/
def Good (ra da : Axes) (r d : Hit) : Prop :=
  (∃ i, d.x = some i ∧ i < da.x.bins) ∧ (∃ i, r.x = some i ∧ i < ra.x.bins) ∧ (∃ i, d.y = some i ∧ i < da.y.bins) ∧ ∃ i, r.y = some i ∧ i < ra.y.bins

theorem addPair_good (ra da : Axes) (h : Hist2 × Hist2) (r d : Hit) (hg : Good ra da r d) :
    ∃ h', addPair ra da (some h) r d = some h' := by
  obtain ⟨⟨i, h1, h1'⟩, ⟨j, h2, h2'⟩, ⟨k, h3, h3'⟩, ⟨l, h4, h4'⟩⟩ := hg
  unfold addPair
  dsimp only
  rw [h1, h2, h3, h4]
  unfold add
  dsimp only
  rw [if_pos ⟨h1', h2'⟩, if_pos ⟨h3', h4'⟩]
  exact ⟨_, rfl⟩

theorem addPair_some (ra da : Axes) (s : Option (Hist2 × Hist2)) (r d : Hit) (h' : Hist2 × Hist2) (hs : addPair ra da s r d = some h') :
    Good ra da r d ∧ ∃ h, s = some h ∧ ∀ i j,
      h'.1 i j = h.1 i j + (if d.x = some i ∧ r.x = some j then 1 else 0) ∧
      h'.2 i j = h.2 i j + (if d.y = some i ∧ r.y = some j then 1 else 0) := by
  unfold addPair at hs
  split at hs
  · cases hs
  · next h =>
    split at hs
    · next hx hy e1 e2 =>
      unfold add at e1 e2
      split at e1
      · next i j hi hj =>
        split at e1
        · next hb =>
          split at e2
          · next k l hk hl =>
            split at e2
            · next hb' =>
              injection e1 with e1
              injection e2 with e2
              injection hs with hs
              subst hs e1 e2
              refine ⟨⟨⟨i, hi, hb.1⟩, ⟨j, hj, hb.2⟩, ⟨k, hk, hb'.1⟩, ⟨l, hl, hb'.2⟩⟩, _, rfl, fun a b => ?_⟩
              rw [hi, hj, hk, hl]
              simp only [Hist2.inc, Option.some.injEq]
              constructor
              · by_cases hab : a = i ∧ b = j
                · rw [if_pos hab, if_pos ⟨hab.1.symm, hab.2.symm⟩]
                · rw [if_neg hab, if_neg (fun q => hab ⟨q.1.symm, q.2.symm⟩)]; rfl
              · by_cases hab : a = k ∧ b = l
                · rw [if_pos hab, if_pos ⟨hab.1.symm, hab.2.symm⟩]
                · rw [if_neg hab, if_neg (fun q => hab ⟨q.1.symm, q.2.symm⟩)]; rfl
            · cases e2
          · cases e2
        · cases e1
      · cases e1
    · cases hs

theorem fold_good (ra da : Axes) (l : List (Hit × Hit)) (h : Hist2 × Hist2) (hg : ∀ p ∈ l, Good ra da p.1 p.2) :
    ∃ h', l.foldl (fun s p => addPair ra da s p.1 p.2) (some h) = some h' := by
  induction l generalizing h with
  | nil => exact ⟨h, rfl⟩
  | cons p l ih =>
    obtain ⟨h1, e⟩ := addPair_good ra da h p.1 p.2 (hg p (by simp))
    rw [List.foldl_cons, e]
    exact ih h1 fun q hq => hg q (by simp [hq])

theorem fold_none (ra da : Axes) (l : List (Hit × Hit)) : l.foldl (fun s p => addPair ra da s p.1 p.2) none = none := by
  induction l with
  | nil => rfl
  | cons p l ih => rw [List.foldl_cons]; exact ih

theorem fold_some (ra da : Axes) (l : List (Hit × Hit)) (h h' : Hist2 × Hist2)
    (hs : l.foldl (fun s p => addPair ra da s p.1 p.2) (some h) = some h') :
    (∀ p ∈ l, Good ra da p.1 p.2) ∧ ∀ i j,
      h'.1 i j = h.1 i j + l.countP (fun p => decide (p.2.x = some i ∧ p.1.x = some j)) ∧
      h'.2 i j = h.2 i j + l.countP (fun p => decide (p.2.y = some i ∧ p.1.y = some j)) := by
  induction l generalizing h with
  | nil =>
    injection hs with hs
    subst hs
    simp
  | cons p l ih =>
    rw [List.foldl_cons] at hs
    cases hp : addPair ra da (some h) p.1 p.2 with
    | none => rw [hp, fold_none] at hs; cases hs
    | some h1 =>
      rw [hp] at hs
      obtain ⟨g1, g2⟩ := ih h1 hs
      obtain ⟨g3, h0, e0, g4⟩ := addPair_some ra da (some h) p.1 p.2 h1 hp
      injection e0 with e0
      subst e0
      refine ⟨fun q hq => ?_, fun i j => ?_⟩
      · rcases List.mem_cons.mp hq with rfl | hq
        · exact g3
        · exact g1 q hq
      · rw [List.countP_cons, List.countP_cons, (g2 i j).1, (g2 i j).2, (g4 i j).1, (g4 i j).2]
        simp only [decide_eq_true_eq]
        constructor <;> omega

theorem join_map {α β γ δ : Type} (e1 : α → Int) (e2 : β → Int) (e3 : γ → Int) (e4 : δ → Int) (f : γ → α) (g : δ → β) (hf : ∀ x, e1 (f x) = e3 x)
    (hg : ∀ x, e2 (g x) = e4 x) (l : List γ) (m : List δ) : join e1 e2 (l.map f) (m.map g) = (join e3 e4 l m).map fun p => (f p.1, g p.2) := by
  unfold join
  rw [List.flatMap_map, List.map_flatMap]
  congr 1
  funext a
  rw [List.filter_map, List.map_map, List.map_map, hf]
  have : ((fun b => decide (e2 b = e3 a)) ∘ g) = fun b => decide (e4 b = e3 a) := by funext b; simp [hg]
  rw [this]
  rfl

/-- The pairs of rows of one event with these x bins, as counted by the code. -/
noncomputable def countX (j : Job) (res : ℝ × ℝ) (i k : Nat) (l m : List Row) : Nat :=
  pairCount l m fun r d => decide (r.ev = d.ev) &&
    decide ((hitOf j.dut j.table.positions j.da res d).x = some i ∧ (hitOf j.ref j.refPositions j.ra res r).x = some k)

/-- The pairs of rows of one event with these y bins, as counted by the code. -/
noncomputable def countY (j : Job) (res : ℝ × ℝ) (i k : Nat) (l m : List Row) : Nat :=
  pairCount l m fun r d => decide (r.ev = d.ev) &&
    decide ((hitOf j.dut j.table.positions j.da res d).y = some i ∧ (hitOf j.ref j.refPositions j.ra res r).y = some k)

/-- The pair is in the histograms. -/
def GoodPair (j : Job) (res : ℝ × ℝ) (r d : Row) : Prop :=
  Good j.ra j.da (hitOf j.ref j.refPositions j.ra res r) (hitOf j.dut j.table.positions j.da res d)

theorem eventLoop_rows (j : Job) (res : ℝ × ℝ) (l m : List Row) (hl : SortedBy Row.ev l) (hm : SortedBy Row.ev m) (h : Hist2 × Hist2) :
    eventLoop Hit.ev Hit.ev (m.map (hitOf j.dut j.table.positions j.da res)) (addPair j.ra j.da) (l.map (hitOf j.ref j.refPositions j.ra res)) 0 (some h) =
      ((join Row.ev Row.ev l m).map fun p => (hitOf j.ref j.refPositions j.ra res p.1, hitOf j.dut j.table.positions j.da res p.2)).foldl
        (fun s p => addPair j.ra j.da s p.1 p.2) (some h) := by
  have h1 : SortedBy Hit.ev (l.map (hitOf j.ref j.refPositions j.ra res)) := List.pairwise_map.mpr hl
  have h2 : SortedBy Hit.ev (m.map (hitOf j.dut j.table.positions j.da res)) := List.pairwise_map.mpr hm
  rw [eventLoop_eq Hit.ev Hit.ev _ _ _ 0 _ h1 h2 (by simp), join_map Hit.ev Hit.ev Row.ev Row.ev _ _ (fun _ => rfl) (fun _ => rfl)]

theorem mem_join {l m : List Row} {p : Row × Row} (h : p ∈ join Row.ev Row.ev l m) : p.1 ∈ l ∧ p.2 ∈ m ∧ p.1.ev = p.2.ev := by
  unfold join at h
  obtain ⟨a, ha, hp⟩ := List.mem_flatMap.mp h
  obtain ⟨b, hb, rfl⟩ := List.mem_map.mp hp
  obtain ⟨hb, he⟩ := List.mem_filter.mp hb
  exact ⟨ha, hb, (of_decide_eq_true he).symm⟩

theorem pairCount_append_right {A B : Type} (l : List A) (m m' : List B) (P : A → B → Bool) :
    pairCount l (m ++ m') P = pairCount l m P + pairCount l m' P := by
  unfold pairCount
  induction l with
  | nil => rfl
  | cons a l ih =>
    simp only [List.flatMap_cons, List.countP_append, List.map_append]
    simp only [List.map_append] at ih
    omega

theorem pairCount_append_left {A B : Type} (l l' : List A) (m : List B) (P : A → B → Bool) :
    pairCount (l ++ l') m P = pairCount l m P + pairCount l' m P := by
  unfold pairCount
  rw [List.flatMap_append, List.countP_append]

theorem dutLoop_ok (j : Job) (res : ℝ × ℝ) (l : List Row) (hl : SortedBy Row.ev l) (items : List (List Row × Nat))
    (hs : ∀ it ∈ items, SortedBy Row.ev it.1) (h h' : Hist2 × Hist2) (hd : dutLoop j res l items h = .ok h') (i k : Nat) :
    h'.1 i k = h.1 i k + countX j res i k l (items.flatMap Prod.fst) ∧ h'.2 i k = h.2 i k + countY j res i k l (items.flatMap Prod.fst) := by
  induction items generalizing h with
  | nil =>
    injection hd with hd
    subst hd
    have : ∀ P : Row → Row → Bool, pairCount l [] P = 0 := by intro P; unfold pairCount; simp
    simp [countX, countY, this]
  | cons it items ih =>
    obtain ⟨m, n⟩ := it
    unfold dutLoop at hd
    split at hd
    · cases hd
    · next rp hrp =>
      split at hd
      · cases hd
      · next dp hdp =>
        split at hd
        · cases hd
        · next h1 he =>
          rw [globalPositions_eq _ _ _ _ hrp, globalPositions_eq _ _ _ _ hdp, toHits_map, toHits_map,
            eventLoop_rows j res l m hl (hs (m, n) (by simp))] at he
          obtain ⟨-, hc⟩ := fold_some _ _ _ _ _ he
          obtain ⟨c1, c2⟩ := ih (fun it hit => hs it (by simp [hit])) h1 hd
          obtain ⟨d1, d2⟩ := hc i k
          rw [c1, c2, d1, d2, List.countP_map, List.countP_map, List.flatMap_cons]
          unfold countX countY
          rw [pairCount_append_right, pairCount_append_right, ← countP_join Row.ev Row.ev l m, ← countP_join Row.ev Row.ev l m]
          constructor <;> (simp only [Function.comp_def]; omega)

theorem join_mem {l m : List Row} {r d : Row} (hr : r ∈ l) (hd : d ∈ m) (h : r.ev = d.ev) : (r, d) ∈ join Row.ev Row.ev l m := by
  unfold join
  exact List.mem_flatMap.mpr ⟨r, hr, List.mem_map.mpr ⟨d, List.mem_filter.mpr ⟨hd, by simp [h]⟩, rfl⟩⟩

theorem dutLoop_good (j : Job) (res : ℝ × ℝ) (l : List Row) (hl : SortedBy Row.ev l) (items : List (List Row × Nat))
    (hs : ∀ it ∈ items, SortedBy Row.ev it.1) (h h' : Hist2 × Hist2) (hd : dutLoop j res l items h = .ok h') :
    ∀ r ∈ l, ∀ d ∈ items.flatMap Prod.fst, r.ev = d.ev → GoodPair j res r d := by
  induction items generalizing h with
  | nil => simp
  | cons it items ih =>
    obtain ⟨m, n⟩ := it
    unfold dutLoop at hd
    split at hd
    · cases hd
    · next rp hrp =>
      split at hd
      · cases hd
      · next dp hdp =>
        split at hd
        · cases hd
        · next h1 he =>
          rw [globalPositions_eq _ _ _ _ hrp, globalPositions_eq _ _ _ _ hdp, toHits_map, toHits_map,
            eventLoop_rows j res l m hl (hs (m, n) (by simp))] at he
          obtain ⟨hc, -⟩ := fold_some _ _ _ _ _ he
          intro r hr d hd' hev
          rw [List.flatMap_cons] at hd'
          rcases List.mem_append.mp hd' with hd' | hd'
          · exact hc _ (List.mem_map.mpr ⟨(r, d), join_mem hr hd' hev, rfl⟩)
          · exact ih (fun it hit => hs it (by simp [hit])) h1 hd r hr d hd' hev

theorem dutLoop_exists (j : Job) (res : ℝ × ℝ) (l : List Row) (hl : SortedBy Row.ev l) (items : List (List Row × Nat))
    (hs : ∀ it ∈ items, SortedBy Row.ev it.1) (hr : ∀ r ∈ l, Readable j.ref j.refPositions r) (hpr : Spec.Proper j.ref)
    (hpd : Spec.Proper j.dut) (hd : ∀ it ∈ items, ∀ d ∈ it.1, Readable j.dut j.table.positions d)
    (hg : ∀ r ∈ l, ∀ it ∈ items, ∀ d ∈ it.1, GoodPair j res r d) (h : Hist2 × Hist2) : ∃ h', dutLoop j res l items h = .ok h' := by
  induction items generalizing h with
  | nil => exact ⟨h, rfl⟩
  | cons it items ih =>
    obtain ⟨m, n⟩ := it
    unfold dutLoop
    rw [globalPositions_ok _ hpr _ _ hr, globalPositions_ok _ hpd _ _ (hd (m, n) (by simp))]
    dsimp only
    rw [toHits_map, toHits_map, eventLoop_rows j res l m hl (hs (m, n) (by simp))]
    obtain ⟨h1, e⟩ := fold_good j.ra j.da ((join Row.ev Row.ev l m).map fun p =>
      (hitOf j.ref j.refPositions j.ra res p.1, hitOf j.dut j.table.positions j.da res p.2)) h (by
        intro p hp
        obtain ⟨q, hq, rfl⟩ := List.mem_map.mp hp
        obtain ⟨g1, g2, -⟩ := mem_join hq
        exact hg q.1 g1 (m, n) (by simp) q.2 g2)
    rw [e]
    exact ih (fun it hit => hs it (by simp [hit])) (fun it hit => hd it (by simp [hit])) (fun r hr it hit => hg r hr it (by simp [hit])) h1

/-! ### One chunk of the reference -/

theorem pairCount_filter_right {A B : Type} (l : List A) (m : List B) (P : A → B → Bool) (q : B → Bool)
    (h : ∀ a ∈ l, ∀ b ∈ m, P a b = true → q b = true) : pairCount l (m.filter q) P = pairCount l m P := by
  unfold pairCount
  induction l with
  | nil => rfl
  | cons a l ih =>
    rw [List.flatMap_cons, List.flatMap_cons, List.countP_append, List.countP_append, ih fun a ha => h a (by simp [ha]), List.countP_map,
      List.countP_map, List.countP_filter]
    congr 1
    apply List.countP_congr
    intro b hb
    simp only [Function.comp_apply, Bool.and_eq_true]
    exact ⟨fun g => g.1, fun g => ⟨g, h a (by simp) b hb g⟩⟩

theorem mem_between {l : List Row} (hl : SortedBy Row.ev l) {f g : Row} (hf : l.head? = some f) (hg : l.getLast? = some g) (r : Row) (hr : r ∈ l) :
    f.ev ≤ r.ev ∧ r.ev ≤ g.ev := by
  refine ⟨?_, BTA.mem_getLast?_ge hl hg r hr⟩
  cases l with
  | nil => cases hf
  | cons a l =>
    injection hf with hf
    subst hf
    rcases List.mem_cons.mp hr with rfl | hr
    · exact le_refl _
    · exact (List.pairwise_cons.mp hl).1 r hr

theorem correlateChunk_spec (res : ℝ × ℝ) (cs : Nat) (hcs : 0 < cs) (l : List Row) (hl : SortedBy Row.ev l) (j : Job)
    (hT : SortedBy Row.ev j.table.rows) (s s' : State) (hi : ∀ f ∈ l, Merge.IdxOk Row.ev j.table.rows s.1 (some f.ev))
    (hc : correlateChunk res cs l j s = .ok s') :
    (∀ v, (∀ r ∈ l, r.ev < v) → Merge.IdxOk Row.ev j.table.rows s'.1 (some v)) ∧ ∀ i k,
      (s'.2.1 i k = s.2.1 i k + countX j res i k l j.table.rows ∧ s'.2.2 i k = s.2.2 i k + countY j res i k l j.table.rows) ∧
      ∀ r ∈ l, ∀ d ∈ j.table.rows, r.ev = d.ev → GoodPair j res r d := by
  unfold correlateChunk at hc
  split at hc
  · next f g hf hg =>
    dsimp only at hc
    have hfl : f ∈ l := List.mem_of_head? hf
    have hgl : g ∈ l := List.mem_of_getLast? hg
    have hfg := mem_between hl hf hg g hgl
    have hread := Merge.read_spec hT (some f.ev) (g.ev + 1) s.1 cs hcs (hi f hfl) (by
      intro x hx
      injection hx with hx
      subst hx
      omega)
    dsimp only at hread
    split at hc
    · cases hc
    · next h hd =>
      split at hc
      · cases hc
      · next herr =>
        injection hc with hc
        subst hc
        obtain ⟨h1, -, h3⟩ := hread
        rcases h1 with ⟨-, hrows, hidx⟩ | ⟨he, -⟩
        · refine ⟨fun v hv => ⟨hidx.1, fun x hx => ?_⟩, fun i k => ?_⟩
          · obtain ⟨w, hw, hx'⟩ := hidx.2 x hx
            injection hw with hw
            subst hw
            have := hv g hgl
            exact ⟨v, rfl, by omega⟩
          · have := dutLoop_ok j res l hl _ (fun it hit => (h3 it hit).2) s.2 h hd i k
            unfold Gen.rows at hrows
            rw [hrows] at this
            have good := dutLoop_good j res l hl _ (fun it hit => (h3 it hit).2) s.2 h hd
            rw [hrows] at good
            have hr : ∀ P : Row → Row → Bool, pairCount l (j.table.rows.filter fun r => inRange (some f.ev) (some (g.ev + 1)) r.ev)
                (fun r d => decide (r.ev = d.ev) && P r d) = pairCount l j.table.rows (fun r d => decide (r.ev = d.ev) && P r d) := by
              intro P
              apply pairCount_filter_right
              intro a ha b _ hP
              simp only [Bool.and_eq_true, decide_eq_true_eq] at hP
              have := mem_between hl hf hg a ha
              simp only [inRange, Option.all_some, Bool.and_eq_true, decide_eq_true_eq]
              omega
            unfold countX countY at this ⊢
            rw [hr, hr] at this
            refine ⟨this, fun r hr d hd' hev => good r hr d (List.mem_filter.mpr ⟨hd', ?_⟩) hev⟩
            have := mem_between hl hf hg r hr
            simp only [inRange, Option.all_some, Bool.and_eq_true, decide_eq_true_eq]
            omega
        · rw [he] at herr; cases herr
  · cases hc

theorem correlateChunk_exists (res : ℝ × ℝ) (cs : Nat) (hcs : 0 < cs) (l : List Row) (hne : l ≠ []) (hl : SortedBy Row.ev l) (j : Job)
    (hT : SortedBy Row.ev j.table.rows) (hm : ∀ e, multiplicity Row.ev j.table.rows e < cs) (s : State)
    (hi : ∀ f ∈ l, Merge.IdxOk Row.ev j.table.rows s.1 (some f.ev)) (hr : ∀ r ∈ l, Readable j.ref j.refPositions r)
    (hpr : Spec.Proper j.ref) (hpd : Spec.Proper j.dut) (hd : ∀ d ∈ j.table.rows, Readable j.dut j.table.positions d)
    (hg : ∀ r ∈ l, ∀ d ∈ j.table.rows, GoodPair j res r d) : ∃ s', correlateChunk res cs l j s = .ok s' := by
  obtain ⟨f, hf⟩ : ∃ x, l.head? = some x := by cases l with | nil => exact absurd rfl hne | cons a l => exact ⟨a, rfl⟩
  obtain ⟨g, hgl⟩ : ∃ x, l.getLast? = some x := ⟨_, List.getLast?_eq_getLast_of_ne_nil hne⟩
  unfold correlateChunk
  rw [hf, hgl]
  dsimp only
  have hfg := mem_between hl hf hgl g (List.mem_of_getLast? hgl)
  have hread := Merge.read_spec hT (some f.ev) (g.ev + 1) s.1 cs hcs (hi f (List.mem_of_head? hf)) (by
    intro x hx
    injection hx with hx
    subst hx
    omega)
  dsimp only at hread
  obtain ⟨h1, -, h3⟩ := hread
  rcases h1 with ⟨he, hrows, -⟩ | ⟨-, e, hbig⟩
  · have hmem : ∀ it ∈ (dataAligned Row.ev j.table.rows { startIndex := s.1, startEvent := some f.ev, stopEvent := some (g.ev + 1), chunkSize := cs, failOnMissing := false }).items, ∀ d ∈ it.1, d ∈ j.table.rows := by
      intro it hit d hd'
      have : d ∈ (dataAligned Row.ev j.table.rows { startIndex := s.1, startEvent := some f.ev, stopEvent := some (g.ev + 1), chunkSize := cs, failOnMissing := false }).rows := List.mem_flatMap.mpr ⟨it, hit, hd'⟩
      rw [hrows] at this
      exact (List.mem_filter.mp this).1
    obtain ⟨h', hh'⟩ := dutLoop_exists j res l hl _ (fun it hit => (h3 it hit).2) hr hpr hpd (fun it hit d hd' => hd d (hmem it hit d hd'))
      (fun r hr it hit d hd' => hg r hr d (hmem it hit d hd')) s.2
    rw [hh']
    dsimp only
    rw [he]
    exact ⟨_, rfl⟩
  · have := hm e
    omega

/-! ### All chunks of the reference -/

/-- The loop over the chunks of the reference for one DUT. -/
noncomputable def jobLoop (res : ℝ × ℝ) (cs : Nat) (j : Job) : List (List Row × Nat) → State → Except Err State
  | [], s => .ok s
  | (c, _) :: rest, s =>
    match correlateChunk res cs c j s with
    | .error e => .error e
    | .ok s' => jobLoop res cs j rest s'

theorem stepDuts_iff (res : ℝ × ℝ) (cs : Nat) (l : List Row) (st out : List (Int × Job × State)) :
    stepDuts res cs l st = .ok out ↔
      List.Forall₂ (fun a b => b.1 = a.1 ∧ b.2.1 = a.2.1 ∧ correlateChunk res cs l a.2.1 a.2.2 = .ok b.2.2) st out := by
  induction st generalizing out with
  | nil =>
    rw [List.forall₂_nil_left_iff]
    constructor
    · intro h; injection h with h; exact h.symm
    · rintro rfl; rfl
  | cons a st ih =>
    obtain ⟨i, j, s⟩ := a
    rw [List.forall₂_cons_left_iff]
    unfold stepDuts
    constructor
    · intro h
      split at h
      · cases h
      · next s' hs' =>
        split at h
        · cases h
        · next o ho =>
          injection h with h
          exact ⟨(i, j, s'), o, ⟨rfl, rfl, hs'⟩, (ih o).mp ho, h.symm⟩
    · rintro ⟨⟨i', j', s'⟩, o, ⟨h1, h2, h3⟩, h4, rfl⟩
      dsimp only at h1 h2 h3
      subst h1 h2
      rw [h3, (ih o).mpr h4]

theorem refLoop_iff (res : ℝ × ℝ) (cs : Nat) (items : List (List Row × Nat)) (st out : List (Int × Job × State)) :
    refLoop res cs items st = .ok out ↔
      List.Forall₂ (fun a b => b.1 = a.1 ∧ b.2.1 = a.2.1 ∧ jobLoop res cs a.2.1 items a.2.2 = .ok b.2.2) st out := by
  induction items generalizing st with
  | nil =>
    unfold refLoop
    simp only [jobLoop, Except.ok.injEq]
    constructor
    · rintro rfl
      rw [List.forall₂_same]
      exact fun x _ => ⟨rfl, rfl, rfl⟩
    · intro h
      induction h with
      | nil => rfl
      | cons h _ ih =>
        rw [ih]
        congr 1
        obtain ⟨h1, h2, h3⟩ := h
        exact Prod.ext h1.symm (Prod.ext h2.symm h3)
  | cons it items ih =>
    obtain ⟨c, n⟩ := it
    unfold refLoop
    constructor
    · intro h
      split at h
      · cases h
      · next st' hst' =>
        have h1 := (stepDuts_iff res cs c st st').mp hst'
        have h2 := (ih st').mp h
        clear h hst' ih
        induction h1 generalizing out with
        | nil =>
          rw [List.forall₂_nil_left_iff] at h2 ⊢
          exact h2
        | cons hab _ ih =>
          obtain ⟨x, o, hx, ho, rfl⟩ := List.forall₂_cons_left_iff.mp h2
          refine List.Forall₂.cons ⟨hx.1.trans hab.1, hx.2.1.trans hab.2.1, ?_⟩ (ih _ ho)
          unfold jobLoop
          rw [hab.2.2]
          dsimp only
          rw [← hab.2.1]
          exact hx.2.2
    · intro h
      obtain ⟨st', h1, h2⟩ : ∃ st', stepDuts res cs c st = .ok st' ∧
          List.Forall₂ (fun a b => b.1 = a.1 ∧ b.2.1 = a.2.1 ∧ jobLoop res cs a.2.1 items a.2.2 = .ok b.2.2) st' out := by
        clear ih
        simp only [stepDuts_iff]
        induction h with
        | nil => exact ⟨[], .nil, .nil⟩
        | @cons a b _ _ hab _ ih =>
          obtain ⟨st', g1, g2⟩ := ih
          obtain ⟨q1, q2, q3⟩ := hab
          unfold jobLoop at q3
          split at q3
          · cases q3
          · next s' hs' =>
            exact ⟨(a.1, a.2.1, s') :: st', .cons ⟨rfl, rfl, hs'⟩ g1, .cons ⟨q1, q2, q3⟩ g2⟩
      rw [h1]
      exact (ih st').mpr h2

theorem jobLoop_spec (res : ℝ × ℝ) (cs : Nat) (hcs : 0 < cs) (j : Job) (hT : SortedBy Row.ev j.table.rows) (items : List (List Row × Nat))
    (hsep : Merge.Separated Row.ev items) (hit : ∀ it ∈ items, SortedBy Row.ev it.1) (s s' : State)
    (hi : ∀ it ∈ items, ∀ f ∈ it.1, Merge.IdxOk Row.ev j.table.rows s.1 (some f.ev)) (h : jobLoop res cs j items s = .ok s') (i k : Nat) :
    (s'.2.1 i k = s.2.1 i k + countX j res i k (items.flatMap Prod.fst) j.table.rows ∧
    s'.2.2 i k = s.2.2 i k + countY j res i k (items.flatMap Prod.fst) j.table.rows) ∧
    ∀ r ∈ items.flatMap Prod.fst, ∀ d ∈ j.table.rows, r.ev = d.ev → GoodPair j res r d := by
  induction items generalizing s with
  | nil =>
    injection h with h
    subst h
    simp [countX, countY, pairCount]
  | cons it items ih =>
    obtain ⟨c, n⟩ := it
    unfold jobLoop at h
    split at h
    · cases h
    · next s1 hs1 =>
      obtain ⟨p1, p2⟩ := correlateChunk_spec res cs hcs c (hit (c, n) (by simp)) j hT s s1 (hi (c, n) (by simp)) hs1
      obtain ⟨q1, q2⟩ := List.pairwise_cons.mp hsep
      obtain ⟨⟨e1, e2⟩, e3⟩ := ih q2 (fun it h => hit it (by simp [h])) s1 (fun it hit f hf => p1 _ fun r hr => q1 it hit r hr f hf) h
      rw [e1, e2, (p2 i k).1.1, (p2 i k).1.2, List.flatMap_cons]
      unfold countX countY
      rw [pairCount_append_left, pairCount_append_left]
      dsimp only
      refine ⟨by constructor <;> omega, fun r hr d hd hev => ?_⟩
      rcases List.mem_append.mp hr with hr | hr
      · exact (p2 i k).2 r hr d hd hev
      · exact e3 r hr d hd hev

theorem jobLoop_exists (res : ℝ × ℝ) (cs : Nat) (hcs : 0 < cs) (j : Job) (hT : SortedBy Row.ev j.table.rows)
    (hm : ∀ e, multiplicity Row.ev j.table.rows e < cs) (items : List (List Row × Nat)) (hsep : Merge.Separated Row.ev items)
    (hit : ∀ it ∈ items, it.1 ≠ [] ∧ SortedBy Row.ev it.1) (s : State)
    (hi : ∀ it ∈ items, ∀ f ∈ it.1, Merge.IdxOk Row.ev j.table.rows s.1 (some f.ev))
    (hr : ∀ it ∈ items, ∀ r ∈ it.1, Readable j.ref j.refPositions r)
    (hpr : Spec.Proper j.ref) (hpd : Spec.Proper j.dut) (hd : ∀ d ∈ j.table.rows, Readable j.dut j.table.positions d)
    (hg : ∀ it ∈ items, ∀ r ∈ it.1, ∀ d ∈ j.table.rows, GoodPair j res r d) : ∃ s', jobLoop res cs j items s = .ok s' := by
  induction items generalizing s with
  | nil => exact ⟨s, rfl⟩
  | cons it items ih =>
    obtain ⟨c, n⟩ := it
    obtain ⟨s1, hs1⟩ := correlateChunk_exists res cs hcs c (hit (c, n) (by simp)).1 (hit (c, n) (by simp)).2 j hT hm s (hi (c, n) (by simp))
      (hr (c, n) (by simp)) hpr hpd hd (hg (c, n) (by simp))
    obtain ⟨p1, p2⟩ := correlateChunk_spec res cs hcs c (hit (c, n) (by simp)).2 j hT s s1 (hi (c, n) (by simp)) hs1
    obtain ⟨q1, q2⟩ := List.pairwise_cons.mp hsep
    unfold jobLoop
    rw [hs1]
    exact ih q2 (fun it h => hit it (by simp [h])) s1 (fun it hit f hf => p1 _ fun r hr => q1 it hit r hr f hf)
      (fun it h => hr it (by simp [h])) (fun it h => hg it (by simp [h]))

/-! ### Jobs and output -/

/-- What `makeJobs` prepares. -/
structure JobOk (tel : List Plane) (select : List Int) (files : List Table) (res : ℝ × ℝ) (ref : Plane) (rp : Bool) (i : Int) (j : Job) : Prop where
  dut : getDut tel i = some j.dut
  file : getFile select files i = some j.table
  reference : j.ref = ref
  refPositions : j.refPositions = rp
  ra : axes ref res = .ok j.ra
  da : axes j.dut res = .ok j.da

theorem makeJobs_spec (tel : List Plane) (select : List Int) (files : List Table) (res : ℝ × ℝ) (ref : Plane) (rp : Bool) (l : List Int)
    (js : List (Int × Job × State)) (h : makeJobs tel select files res ref rp l = .ok js) :
    js.map Prod.fst = l ∧ ∀ x ∈ js, JobOk tel select files res ref rp x.1 x.2.1 ∧ x.2.2 = (none, fun _ _ => 0, fun _ _ => 0) := by
  induction l generalizing js with
  | nil =>
    injection h with h
    subst h
    exact ⟨rfl, by simp⟩
  | cons i l ih =>
    unfold makeJobs at h
    split at h
    · next dut t hd ht =>
      split at h
      · next ra da hra hda =>
        split at h
        · cases h
        · next js' hjs' =>
          injection h with h
          subst h
          obtain ⟨h1, h2⟩ := ih js' hjs'
          refine ⟨by rw [List.map_cons, h1], ?_⟩
          intro x hx
          rcases List.mem_cons.mp hx with rfl | hx
          · exact ⟨⟨hd, ht, rfl, rfl, hra, hda⟩, rfl⟩
          · exact h2 x hx
      · cases h
      · cases h
    · cases h
    · cases h

theorem axes_eq (p : Plane) (hp : Spec.Proper p) (res : ℝ × ℝ) : axes p res =
    .ok ⟨⟨p.align.x - ⌈2 * halfSize p 0 / res.1⌉₊ * res.1 / 2, ⌈2 * halfSize p 0 / res.1⌉₊⟩,
      ⟨p.align.y - ⌈2 * halfSize p 1 / res.2⌉₊ * res.2 / 2, ⌈2 * halfSize p 1 / res.2⌉₊⟩⟩ := by
  unfold axes
  rw [axis_eq p hp, axis_eq p hp]

theorem makeJobs_exists (tel : List Plane) (select : List Int) (files : List Table) (res : ℝ × ℝ) (ref : Plane) (rp : Bool) (l : List Int)
    (hr : Spec.Proper ref) (h : ∀ i ∈ l, ∃ p t, getDut tel i = some p ∧ getFile select files i = some t ∧ Spec.Proper p) :
    ∃ js, makeJobs tel select files res ref rp l = .ok js := by
  induction l with
  | nil => exact ⟨_, rfl⟩
  | cons i l ih =>
    obtain ⟨p, t, h1, h2, h3⟩ := h i (by simp)
    obtain ⟨js, hjs⟩ := ih fun i hi => h i (by simp [hi])
    unfold makeJobs
    rw [h1, h2]
    dsimp only
    rw [axes_eq ref hr, axes_eq p h3]
    dsimp only
    rw [hjs]
    exact ⟨_, rfl⟩

theorem store_spec (lead : Leading) (done : List Int) (ref : Int) (st : List (Int × Job × State)) (out : List Entry)
    (h : store lead done ref st = .ok out) :
    List.Forall₂ (fun a (e : Entry) => ref ∉ done ∧ (a.2.1.da.x.bins ≠ 0 ∧ a.2.1.ra.x.bins ≠ 0 ∧ a.2.1.da.y.bins ≠ 0 ∧ a.2.1.ra.y.bins ≠ 0) ∧
      e = ⟨ref, a.1, a.2.1.ra, a.2.1.da, a.2.2.2.1, a.2.2.2.2, reduced lead a.2.1.da.x.bins a.2.1.ra.x.bins a.2.2.2.1,
        reduced lead a.2.1.da.y.bins a.2.1.ra.y.bins a.2.2.2.2⟩) st out := by
  induction st generalizing out with
  | nil =>
    injection h with h
    subst h
    exact .nil
  | cons a st ih =>
    obtain ⟨i, j, s⟩ := a
    unfold store at h
    split at h
    · cases h
    · next hd =>
      split at h
      · cases h
      · next hb =>
        split at h
        · cases h
        · next o ho =>
          injection h with h
          subst h
          push Not at hb
          exact .cons ⟨hd, hb, rfl⟩ (ih o ho)

theorem store_exists (lead : Leading) (done : List Int) (ref : Int) (st : List (Int × Job × State)) (hd : ref ∉ done)
    (h : ∀ a ∈ st, a.2.1.da.x.bins ≠ 0 ∧ a.2.1.ra.x.bins ≠ 0 ∧ a.2.1.da.y.bins ≠ 0 ∧ a.2.1.ra.y.bins ≠ 0) :
    ∃ out, store lead done ref st = .ok out := by
  induction st with
  | nil => exact ⟨_, rfl⟩
  | cons a st ih =>
    obtain ⟨i, j, s⟩ := a
    obtain ⟨o, ho⟩ := ih fun a ha => h a (by simp [ha])
    obtain ⟨h1, h2, h3, h4⟩ := h (i, j, s) (by simp)
    unfold store
    rw [if_neg hd, if_neg (by rintro (h | h | h | h) <;> contradiction), ho]
    exact ⟨_, rfl⟩

theorem forall₂_mem_right {A B : Type} {R : A → B → Prop} {l : List A} {m : List B} (h : List.Forall₂ R l m) (b : B) (hb : b ∈ m) :
    ∃ a ∈ l, R a b := by
  induction h with
  | nil => simp at hb
  | cons h _ ih =>
    rcases List.mem_cons.mp hb with rfl | hb
    · exact ⟨_, by simp, h⟩
    · obtain ⟨a, ha, hab⟩ := ih hb
      exact ⟨a, by simp [ha], hab⟩

theorem init_idxOk (T : List Row) (v : Int) : Merge.IdxOk Row.ev T none (some v) := ⟨by simp, by simp⟩

/-- An entry of the output of one reference DUT. -/
theorem correlateRef_spec (tel : List Plane) (select : List Int) (files : List Table) (res : ℝ × ℝ) (cs : Nat) (hcs : 0 < cs) (lead : Leading)
    (done : List Int) (ref : Int) (out : List Entry) (hs : ∀ i t, getFile select files i = some t → SortedBy Row.ev t.rows)
    (h : correlateRef tel select files res cs lead done ref = .ok out) :
    out.map Entry.dut = others select ref ∧ (∀ e ∈ out, e.ref = ref ∧ ref ∉ done) ∧
    ∃ p t, getDut tel ref = some p ∧ getFile select files ref = some t ∧ ∀ e ∈ out, ∃ j, JobOk tel select files res p t.positions e.dut j ∧
      e.ra = j.ra ∧ e.da = j.da ∧ (j.da.x.bins ≠ 0 ∧ j.ra.x.bins ≠ 0 ∧ j.da.y.bins ≠ 0 ∧ j.ra.y.bins ≠ 0) ∧
      e.xReduced = reduced lead j.da.x.bins j.ra.x.bins e.x ∧ e.yReduced = reduced lead j.da.y.bins j.ra.y.bins e.y ∧
      (∀ r ∈ t.rows, ∀ d ∈ j.table.rows, r.ev = d.ev → GoodPair j res r d) ∧
      ∀ i k, e.x i k = countX j res i k t.rows j.table.rows ∧ e.y i k = countY j res i k t.rows j.table.rows := by
  unfold correlateRef at h
  split at h
  · cases h
  · cases h
  · next t p ht hp =>
    split at h
    · cases h
    · next jobs hjobs =>
      obtain ⟨j1, j2⟩ := makeJobs_spec _ _ _ _ _ _ _ _ hjobs
      have ht' := hs ref t ht
      obtain ⟨c1, c2, c3⟩ := chunks_default ht' cs hcs
      dsimp only at h c1 c2 c3
      split at h
      · cases h
      · next st hst =>
        split at h
        · cases h
        · next herr =>
          rcases c3 with ⟨he, -⟩ | ⟨-, hrows⟩
          · rw [he] at herr; cases herr
          · have r1 := (refLoop_iff _ _ _ _ _).mp hst
            have r2 := store_spec _ _ _ _ _ h
            have hsorted : ∀ it ∈ (dataAligned Row.ev t.rows { chunkSize := cs }).items, SortedBy Row.ev it.1 := by
              intro it hit
              obtain ⟨-, -, -, hd, -⟩ := BTA.Props.C02_chunks_aligned ht' { chunkSize := cs } hcs rfl (by simp) it.1 it.2 hit
              rw [hd]
              exact List.Pairwise.sublist ((List.drop_sublist _ _).trans (List.take_sublist _ _)) ht'
            have hall : List.Forall₂ (fun (a : Int × Job × State) (e : Entry) => e.dut = a.1 ∧ (e.ref = ref ∧ ref ∉ done) ∧ ∃ j, j = a.2.1 ∧
                e.ra = j.ra ∧ e.da = j.da ∧ (j.da.x.bins ≠ 0 ∧ j.ra.x.bins ≠ 0 ∧ j.da.y.bins ≠ 0 ∧ j.ra.y.bins ≠ 0) ∧
                e.xReduced = reduced lead j.da.x.bins j.ra.x.bins e.x ∧ e.yReduced = reduced lead j.da.y.bins j.ra.y.bins e.y ∧
                (∀ r ∈ t.rows, ∀ d ∈ j.table.rows, r.ev = d.ev → GoodPair j res r d) ∧
      ∀ i k, e.x i k = countX j res i k t.rows j.table.rows ∧ e.y i k = countY j res i k t.rows j.table.rows) jobs out := by
              clear hst h j1 hjobs
              induction r1 generalizing out with
              | nil =>
                rw [List.forall₂_nil_left_iff] at r2
                subst r2
                exact .nil
              | @cons a b _ _ hab _ ih =>
                obtain ⟨e, o, he, ho, rfl⟩ := List.forall₂_cons_left_iff.mp r2
                refine .cons ?_ (ih _ (fun x hx => j2 x (by simp [hx])) ho)
                obtain ⟨q1, q2, q3⟩ := hab
                obtain ⟨n1, n2, rfl⟩ := he
                obtain ⟨k1, k2⟩ := j2 a (by simp)
                have key := fun i k => jobLoop_spec res cs hcs a.2.1 (hs _ _ k1.file) _ c1 hsorted a.2.2 b.2.2 (by
                  intro it _ f _
                  rw [k2]
                  exact init_idxOk _ _) q3 i k
                rw [hrows, k2] at key
                refine ⟨q1, ⟨rfl, n1⟩, b.2.1, q2, rfl, rfl, n2, rfl, rfl, ?_, fun i k => ?_⟩
                · rw [q2]
                  exact (key 0 0).2
                · rw [q2]
                  simpa using (key i k).1
            refine ⟨?_, ?_, p, t, hp, ht, ?_⟩
            · rw [← j1]
              clear j1 j2 r1 r2 hjobs hst h
              induction hall with
              | nil => rfl
              | cons h _ ih => rw [List.map_cons, List.map_cons, ih, h.1]
            · intro e he
              obtain ⟨a, -, ha⟩ := forall₂_mem_right hall e he
              exact ha.2.1
            · intro e he
              obtain ⟨a, ha', ha⟩ := forall₂_mem_right hall e he
              obtain ⟨e1, -, j, hj, rest⟩ := ha
              refine ⟨j, ?_, rest⟩
              rw [hj, e1]
              exact (j2 a ha').1

theorem toIndex_iff (start res x : ℝ) (hr : 0 < res) (hx : start ≤ x) (i : Nat) : toIndex start res x = some i ↔ InBin start res x i := by
  unfold toIndex InBin
  have h0 : 0 ≤ (x - start) / res := div_nonneg (by linarith) hr.le
  rw [if_neg (by linarith), Option.some.injEq, Nat.floor_eq_iff h0, le_div_iff₀ hr, div_lt_iff₀ hr]
  constructor
  · rintro ⟨h1, h2⟩; constructor <;> linarith
  · rintro ⟨h1, h2⟩; constructor <;> linarith

theorem toIndex_or_below (start res x : ℝ) (hr : 0 < res) (i : Nat) : toIndex start res x = some i ↔ InBinOrBelow start res x i := by
  by_cases hx : start ≤ x
  · rw [toIndex_iff start res x hr hx]
    unfold InBinOrBelow
    constructor
    · exact .inl
    · rintro (h | ⟨-, -, h⟩)
      · exact h
      · linarith
  · push Not at hx
    unfold toIndex InBinOrBelow InBin
    have h0 : (x - start) / res < 0 := div_neg_of_neg_of_pos (by linarith) hr
    have h1 : (x - start) / res ≤ -1 ↔ x ≤ start - res := by
      rw [div_le_iff₀ hr]
      constructor <;> intro h <;> linarith
    have h2 : (0 : ℝ) ≤ i * res := by positivity
    by_cases hc : (x - start) / res ≤ -1
    · rw [if_pos hc]
      have := h1.mp hc
      constructor
      · intro h; cases h
      · rintro (⟨h, -⟩ | ⟨-, h, -⟩) <;> linarith
    · rw [if_neg hc, Option.some.injEq, Nat.floor_of_nonpos h0.le]
      have : start - res < x := not_le.mp fun h => hc (h1.mpr h)
      constructor
      · rintro rfl
        exact .inr ⟨rfl, this, hx⟩
      · rintro (⟨h, -⟩ | ⟨h, -⟩)
        · linarith
        · exact h.symm

theorem axis_covers (h res : ℝ) (hr : 0 < res) : h ≤ ⌈2 * h / res⌉₊ * res / 2 := by
  have := Nat.le_ceil (2 * h / res)
  rw [div_le_iff₀ hr] at this
  linarith

/-! ### All reference DUTs -/

theorem others_spec (select : List Int) (r : Int) : (others select r).Nodup ∧ ∀ i, i ∈ others select r ↔ i ∈ select ∧ i ≠ r := by
  unfold others
  constructor
  · rw [List.nodup_reverse]; exact List.nodup_dedup _
  · intro i; simp

theorem lookup_mem {i : Int} {t : Table} {l : List (Int × Table)} (h : l.lookup i = some t) : (i, t) ∈ l := by
  obtain ⟨l1, l2, rfl, -⟩ := List.lookup_eq_some_iff.mp h
  simp

theorem correlate_ok {tel : List Plane} {files : List Table} {res : ℝ × ℝ} {select refs : Option (List Int)} {cs : Nat} {lead : Leading}
    {o : Bool} {out : List Entry} (h : correlate tel files res select refs cs lead = (o, .ok out)) :
    correlateRefs tel (selectDuts tel select) files res cs lead [] (refs.getD (selectDuts tel select)) = .ok out := by
  unfold correlate at h
  dsimp only at h
  split at h
  · cases h
  · split at h
    · cases h
    · injection h

theorem correlateRefs_mem {tel : List Plane} {select : List Int} {files : List Table} {res : ℝ × ℝ} {cs : Nat} {lead : Leading}
    {done refs : List Int} {out : List Entry} (h : correlateRefs tel select files res cs lead done refs = .ok out) (e : Entry) (he : e ∈ out) :
    ∃ r ∈ refs, ∃ done' o, correlateRef tel select files res cs lead done' r = .ok o ∧ e ∈ o := by
  induction refs generalizing done out with
  | nil =>
    injection h with h
    subst h
    simp at he
  | cons r refs ih =>
    unfold correlateRefs at h
    split at h
    · cases h
    · next a ha =>
      split at h
      · cases h
      · next b hb =>
        injection h with h
        subst h
        rcases List.mem_append.mp he with he | he
        · exact ⟨r, by simp, done, a, ha, he⟩
        · obtain ⟨r', hr', rest⟩ := ih hb he
          exact ⟨r', by simp [hr'], rest⟩

theorem pairCount_congr {A B : Type} (l : List A) (m : List B) (P Q : A → B → Bool) (h : ∀ a ∈ l, ∀ b ∈ m, P a b = Q a b) :
    pairCount l m P = pairCount l m Q := by
  unfold pairCount
  apply List.countP_congr
  rintro ⟨a, b⟩ hp
  obtain ⟨a', ha', hp⟩ := List.mem_flatMap.mp hp
  obtain ⟨b', hb', hp⟩ := List.mem_map.mp hp
  injection hp with h1 h2
  subst h1 h2
  rw [h a' ha' b' hb']

theorem start_le (p : Plane) (hp : Spec.Proper p) (res : ℝ × ℝ) (hr : 0 < res.1 ∧ 0 < res.2) (a : Axes) (ha : axes p res = .ok a) (q : ℝ × ℝ)
    (hq : OnSensor p q) : a.x.start ≤ toGlobal p q 0 ∧ a.y.start ≤ toGlobal p q 1 := by
  rw [axes_eq p hp] at ha
  injection ha with ha
  subst ha
  have h0 := (abs_le.mp (abs_le_halfSize p q hq 0)).1
  have h1 := (abs_le.mp (abs_le_halfSize p q hq 1)).1
  have c0 := axis_covers (halfSize p 0) res.1 hr.1
  have c1 := axis_covers (halfSize p 1) res.2 hr.2
  have e0 : (![p.align.x, p.align.y, p.align.z] : Vec3) 0 = p.align.x := rfl
  have e1 : (![p.align.x, p.align.y, p.align.z] : Vec3) 1 = p.align.y := rfl
  rw [e0] at h0
  rw [e1] at h1
  dsimp only
  constructor <;> linarith

theorem refLoop_fst {res : ℝ × ℝ} {cs : Nat} {items : List (List Row × Nat)} {st out : List (Int × Job × State)}
    (h : refLoop res cs items st = .ok out) : out.map Prod.fst = st.map Prod.fst := by
  have := (refLoop_iff _ _ _ _ _).mp h
  clear h
  induction this with
  | nil => rfl
  | cons h _ ih => rw [List.map_cons, List.map_cons, ih, h.1]

theorem correlateRef_pairs {tel : List Plane} {select : List Int} {files : List Table} {res : ℝ × ℝ} {cs : Nat} {lead : Leading}
    {done : List Int} {ref : Int} {out : List Entry} (h : correlateRef tel select files res cs lead done ref = .ok out) :
    out.map Entry.dut = others select ref ∧ (∀ e ∈ out, e.ref = ref ∧ ref ∉ done) ∧ (∃ p, getDut tel ref = some p) ∧
      (∃ t, getFile select files ref = some t) ∧ ∀ i ∈ others select ref, ∃ p, getDut tel i = some p := by
  unfold correlateRef at h
  split at h
  · cases h
  · cases h
  · next t p ht hp =>
    split at h
    · cases h
    · next jobs hjobs =>
      obtain ⟨j1, j2⟩ := makeJobs_spec _ _ _ _ _ _ _ _ hjobs
      dsimp only at h
      split at h
      · cases h
      · next st hst =>
        split at h
        · cases h
        · have r1 := refLoop_fst hst
          have r2 := store_spec _ _ _ _ _ h
          refine ⟨?_, ?_, ⟨p, hp⟩, ⟨t, ht⟩, ?_⟩
          · rw [← j1, ← r1]
            clear r1 hst h hjobs j1 j2
            induction r2 with
            | nil => rfl
            | cons h _ ih => rw [List.map_cons, List.map_cons, ih, h.2.2]
          · intro e he
            obtain ⟨a, -, ha⟩ := forall₂_mem_right r2 e he
            rw [ha.2.2]
            exact ⟨rfl, ha.1⟩
          · intro i hi
            rw [← j1] at hi
            obtain ⟨x, hx, rfl⟩ := List.mem_map.mp hi
            exact ⟨_, (j2 x hx).1.dut⟩

theorem correlateRefs_pairs {tel : List Plane} {select : List Int} {files : List Table} {res : ℝ × ℝ} {cs : Nat} {lead : Leading}
    {done refs : List Int} {out : List Entry} (h : correlateRefs tel select files res cs lead done refs = .ok out) :
    (out.map fun e => (e.ref, e.dut)).Nodup ∧ (∀ e ∈ out, e.ref ∉ done) ∧
      ∀ r d, (r, d) ∈ (out.map fun e => (e.ref, e.dut)) ↔ r ∈ refs ∧ d ∈ select ∧ d ≠ r := by
  induction refs generalizing done out with
  | nil =>
    injection h with h
    subst h
    simp
  | cons r refs ih =>
    unfold correlateRefs at h
    split at h
    · cases h
    · next a ha =>
      split at h
      · cases h
      · next b hb =>
        injection h with h
        subst h
        obtain ⟨h1, h2, h3⟩ := ih hb
        obtain ⟨g1, g2, -⟩ := correlateRef_pairs ha
        have ea : (a.map fun e => (e.ref, e.dut)) = (others select r).map fun d => (r, d) := by
          rw [← g1, List.map_map]
          exact List.map_congr_left fun e he => by rw [(g2 e he).1]; rfl
        refine ⟨?_, ?_, ?_⟩
        · rw [List.map_append, List.nodup_append]
          refine ⟨?_, h1, ?_⟩
          · rw [ea]
            exact (others_spec select r).1.map fun x y hxy => by injection hxy
          · intro x hx y hy hxy
            obtain ⟨e, he, rfl⟩ := List.mem_map.mp hx
            obtain ⟨e', he', rfl⟩ := List.mem_map.mp hy
            injection hxy with hxy
            apply h2 e' he'
            rw [← hxy, (g2 e he).1]
            simp
        · intro e he
          rcases List.mem_append.mp he with he | he
          · rw [(g2 e he).1]; exact (g2 e he).2
          · exact fun hm => h2 e he (by simp [hm])
        · intro r' d
          rw [List.map_append, List.mem_append, h3, ea]
          simp only [List.mem_map, (others_spec select r).2, List.mem_cons]
          constructor
          · rintro (⟨x, hx, hxy⟩ | ⟨p1, p2⟩)
            · injection hxy with q1 q2
              subst q1 q2
              exact ⟨.inl rfl, hx⟩
            · exact ⟨.inr p1, p2⟩
          · rintro ⟨rfl | p1, p2⟩
            · exact .inl ⟨d, p2, rfl⟩
            · exact .inr ⟨p1, p2⟩

/-- What is known about an entry. -/
theorem entry_spec {tel : List Plane} {files : List Table} {res : ℝ × ℝ} {select refs : Option (List Int)} {cs : Nat} {lead : Leading}
    {o : Bool} {out : List Entry} (hcs : 0 < cs) (hs : ∀ t ∈ files, SortedBy Row.ev t.rows)
    (h : correlate tel files res select refs cs lead = (o, .ok out)) (e : Entry) (he : e ∈ out) :
    ∃ p t, getDut tel e.ref = some p ∧ getFile (selectDuts tel select) files e.ref = some t ∧
      ∃ j, JobOk tel (selectDuts tel select) files res p t.positions e.dut j ∧
      e.ra = j.ra ∧ e.da = j.da ∧ (j.da.x.bins ≠ 0 ∧ j.ra.x.bins ≠ 0 ∧ j.da.y.bins ≠ 0 ∧ j.ra.y.bins ≠ 0) ∧
      e.xReduced = reduced lead j.da.x.bins j.ra.x.bins e.x ∧ e.yReduced = reduced lead j.da.y.bins j.ra.y.bins e.y ∧
      (∀ r ∈ t.rows, ∀ d ∈ j.table.rows, r.ev = d.ev → GoodPair j res r d) ∧
      ∀ i k, e.x i k = countX j res i k t.rows j.table.rows ∧ e.y i k = countY j res i k t.rows j.table.rows := by
  obtain ⟨r, -, done, o', ho, heo⟩ := correlateRefs_mem (correlate_ok h) e he
  obtain ⟨-, h2, p, t, hp, ht, h3⟩ := correlateRef_spec tel _ files res cs hcs lead done r o'
    (fun i t ht => hs t (List.of_mem_zip (lookup_mem ht)).2) ho
  refine ⟨p, t, ?_, ?_, h3 e heo⟩
  · rw [(h2 e heo).1]; exact hp
  · rw [(h2 e heo).1]; exact ht

theorem getDut_mem {tel : List Plane} {i : Int} {p : Plane} (h : getDut tel i = some p) : p ∈ tel := by
  unfold getDut at h
  split at h
  · exact List.mem_of_getElem? h
  · cases h

theorem smallest_axis (p : Plane) (hp : Spec.Proper p) (k : Fin 3) (res : ℝ) (hr : 0 < res) (c : ℝ) (hc : ![p.align.x, p.align.y, p.align.z] k = c) :
    SmallestAxis p k res ⟨c - ⌈2 * halfSize p k / res⌉₊ * res / 2, ⌈2 * halfSize p k / res⌉₊⟩ := by
  have cov := axis_covers (halfSize p k) res hr
  refine ⟨?_, ?_, ?_⟩
  · rw [toGlobal_coord, hc]
    ring
  · intro q hq
    have := abs_le.mp (abs_le_halfSize p q hq k)
    rw [hc] at this
    dsimp only
    constructor <;> linarith
  · intro n hn
    dsimp only
    rw [Nat.ceil_le, div_le_iff₀ hr]
    -- the corners that are farthest apart
    have c1 : (0 : ℝ) ≤ p.pixels.nColumns * p.pixels.columnSize / 2 := by have := hp.column; positivity
    have c2 : (0 : ℝ) ≤ p.pixels.nRows * p.pixels.rowSize / 2 := by have := hp.row; positivity
    let s (v w : ℝ) : ℝ := if 0 ≤ v then w else -w
    have hs : ∀ v w : ℝ, 0 ≤ w → |s v w| ≤ w ∧ |-s v w| ≤ w ∧ v * s v w = |v| * w := by
      intro v w hw
      by_cases hv : 0 ≤ v
      · simp [s, hv, abs_of_nonneg hw, abs_of_nonneg hv]
      · simp only [s, if_neg hv, neg_neg, abs_neg, abs_of_nonneg hw, abs_of_neg (not_le.mp hv)]
        refine ⟨le_refl _, le_refl _, by ring⟩
    have h1 := hs (rotationMatrix p.align.alpha p.align.beta p.align.gamma k 0) _ c1
    have h2 := hs (rotationMatrix p.align.alpha p.align.beta p.align.gamma k 1) _ c2
    have := hn (s (rotationMatrix p.align.alpha p.align.beta p.align.gamma k 0) _, s (rotationMatrix p.align.alpha p.align.beta p.align.gamma k 1) _)
      (-s (rotationMatrix p.align.alpha p.align.beta p.align.gamma k 0) _, -s (rotationMatrix p.align.alpha p.align.beta p.align.gamma k 1) _)
      ⟨h1.1, h2.1⟩ ⟨h1.2.1, h2.2.1⟩
    rw [toGlobal_coord, toGlobal_coord] at this
    unfold halfSize
    rw [← h1.2.2, ← h2.2.2]
    dsimp only at this
    linarith

theorem smallest_axes {p : Plane} (hp : Spec.Proper p) {res : ℝ × ℝ} (hr : 0 < res.1 ∧ 0 < res.2) {a : Axes} (ha : axes p res = .ok a) :
    SmallestAxis p 0 res.1 a.x ∧ SmallestAxis p 1 res.2 a.y := by
  rw [axes_eq p hp] at ha
  injection ha with ha
  subst ha
  exact ⟨smallest_axis p hp 0 res.1 hr.1 _ rfl, smallest_axis p hp 1 res.2 hr.2 _ rfl⟩

theorem index_inside {p : Plane} (hp : Spec.Proper p) {k : Fin 3} {res : ℝ} (hr : 0 < res) {q : ℝ × ℝ} (hq : InsideSensor p q) (hk : Extended p k) :
    ∃ i, toIndex (![p.align.x, p.align.y, p.align.z] k - ⌈2 * halfSize p k / res⌉₊ * res / 2) res (toGlobal p q k) = some i ∧
      i < ⌈2 * halfSize p k / res⌉₊ := by
  have cov := axis_covers (halfSize p k) res hr
  have h := abs_lt.mp (abs_lt_halfSize p hp q hq k hk)
  have h0 : 0 ≤ (toGlobal p q k - (![p.align.x, p.align.y, p.align.z] k - ⌈2 * halfSize p k / res⌉₊ * res / 2)) / res :=
    div_nonneg (by linarith) hr.le
  unfold toIndex
  rw [if_neg (by linarith)]
  refine ⟨_, rfl, ?_⟩
  rw [Nat.floor_lt h0, div_lt_iff₀ hr]
  linarith

/-- The hit is in the histogram. -/
def InHist (p : Plane) (res : ℝ × ℝ) (b : Bool) (r : Row) : Prop :=
  (∃ i, toIndex (p.align.x - ⌈2 * halfSize p 0 / res.1⌉₊ * res.1 / 2) res.1 (globalPos p b r 0) = some i ∧ i < ⌈2 * halfSize p 0 / res.1⌉₊) ∧
  ∃ i, toIndex (p.align.y - ⌈2 * halfSize p 1 / res.2⌉₊ * res.2 / 2) res.2 (globalPos p b r 1) = some i ∧ i < ⌈2 * halfSize p 1 / res.2⌉₊

theorem inHist_inside {p : Plane} (hp : Spec.Proper p) {res : ℝ × ℝ} (hr : 0 < res.1 ∧ 0 < res.2) {b : Bool} {r : Row}
    (hq : InsideSensor p (localPos p b r)) (h0 : Extended p 0) (h1 : Extended p 1) : InHist p res b r :=
  ⟨index_inside hp hr.1 hq h0, index_inside hp hr.2 hq h1⟩

/-- A DUT and its file with which `correlate` succeeds. -/
def Usable (tel : List Plane) (select : List Int) (files : List Table) (res : ℝ × ℝ) (cs : Nat) (i : Int) : Prop :=
  ∃ p t, getDut tel i = some p ∧ getFile select files i = some t ∧ Spec.Proper p ∧ Extended p 0 ∧ Extended p 1 ∧
    (∀ r ∈ t.rows, Readable p t.positions r ∧ InHist p res t.positions r) ∧
    SortedBy Row.ev t.rows ∧ ∀ v, multiplicity Row.ev t.rows v < cs

theorem lookup_exists (select : List Int) (files : List Table) (hl : select.length = files.length) (i : Int) (hi : i ∈ select) :
    ∃ t, getFile select files i = some t ∧ t ∈ files := by
  unfold getFile
  induction select generalizing files with
  | nil => simp at hi
  | cons a l ih =>
    cases files with
    | nil => simp at hl
    | cons t ts =>
      rw [List.zip_cons_cons, List.lookup_cons]
      by_cases h : i = a
      · subst h
        simp
      · rw [beq_false_of_ne h]
        obtain ⟨t', h1, h2⟩ := ih ts (by simpa using hl) (by simpa [h] using hi)
        exact ⟨t', h1, by simp [h2]⟩

theorem correlateRef_exists (tel : List Plane) (select : List Int) (files : List Table) (res : ℝ × ℝ) (hr : 0 < res.1 ∧ 0 < res.2) (cs : Nat)
    (lead : Leading) (done : List Int) (ref : Int) (hd : ref ∉ done) (href : ref ∈ select) (hu : ∀ i ∈ select, Usable tel select files res cs i) :
    ∃ out, correlateRef tel select files res cs lead done ref = .ok out := by
  obtain ⟨p, t, hp, ht, pp, x0, x1, hin, hs, hm⟩ := hu ref href
  have hcs : 0 < cs := lt_of_le_of_lt (Nat.zero_le _) (hm 0)
  unfold correlateRef
  rw [ht, hp]
  dsimp only
  obtain ⟨jobs, hjobs⟩ := makeJobs_exists tel select files res p t.positions (others select ref) pp (by
    intro i hi
    obtain ⟨p', t', h1, h2, h3, -⟩ := hu i (((others_spec select ref).2 i).mp hi).1
    exact ⟨p', t', h1, h2, h3⟩)
  rw [hjobs]
  dsimp only
  obtain ⟨j1, j2⟩ := makeJobs_spec _ _ _ _ _ _ _ _ hjobs
  obtain ⟨c1, c2, c3⟩ := chunks_default hs cs hcs
  have herr : (dataAligned Row.ev t.rows { chunkSize := cs }).err = none := by
    rcases c3 with ⟨-, v, hv⟩ | ⟨h, -⟩
    · have := hm v
      omega
    · exact h
  have hrows : ∀ it ∈ (dataAligned Row.ev t.rows { chunkSize := cs }).items, it.1 ≠ [] ∧ SortedBy Row.ev it.1 ∧ ∀ r ∈ it.1, r ∈ t.rows := by
    intro it hit
    obtain ⟨hne, -, -, hd, -⟩ := BTA.Props.C02_chunks_aligned hs { chunkSize := cs } hcs rfl (by simp) it.1 it.2 hit
    refine ⟨?_, ?_, ?_⟩
    · exact hne
    · rw [hd]
      exact List.Pairwise.sublist ((List.drop_sublist _ _).trans (List.take_sublist _ _)) hs
    · rw [hd]
      exact fun r hr => ((List.drop_sublist _ _).trans (List.take_sublist _ _)).subset hr
  have hjl : ∀ x ∈ jobs, ∃ s', jobLoop res cs x.2.1 (dataAligned Row.ev t.rows { chunkSize := cs }).items x.2.2 = .ok s' := by
    intro x hx
    obtain ⟨k1, k2⟩ := j2 x hx
    have hxo : x.1 ∈ others select ref := by rw [← j1]; exact List.mem_map_of_mem hx
    obtain ⟨p', t', h1, h2, h3, y0, y1, hin', hs', hm'⟩ := hu x.1 (((others_spec select ref).2 _).mp hxo).1
    have ep : x.2.1.dut = p' := by have := k1.dut; rw [h1] at this; injection this with this; exact this.symm
    have et : x.2.1.table = t' := by have := k1.file; rw [h2] at this; injection this with this; exact this.symm
    have era := k1.ra
    have eda := k1.da
    rw [axes_eq p pp] at era
    rw [ep, axes_eq p' h3] at eda
    injection era with era
    injection eda with eda
    apply jobLoop_exists res cs hcs x.2.1 (by rw [et]; exact hs') (by rw [et]; exact hm') _ c1 (fun it hit => ⟨(hrows it hit).1, (hrows it hit).2.1⟩)
    · intro it _ f _
      rw [k2]
      exact init_idxOk _ _
    · intro it hit r hr'
      rw [k1.reference, k1.refPositions]
      exact (hin r ((hrows it hit).2.2 r hr')).1
    · rw [k1.reference]; exact pp
    · rw [ep]; exact h3
    · intro d hd'
      rw [ep]
      rw [et] at hd' ⊢
      exact (hin' d hd').1
    · intro it hit r hr' d hd'
      have a1 := hin r ((hrows it hit).2.2 r hr')
      rw [et] at hd'
      have a2 := hin' d hd'
      unfold GoodPair Good hitOf
      rw [k1.reference, k1.refPositions, ep, et, ← era, ← eda]
      exact ⟨a2.2.1, a1.2.1, a2.2.2, a1.2.2⟩
  obtain ⟨st, hst⟩ : ∃ st, refLoop res cs (dataAligned Row.ev t.rows { chunkSize := cs }).items jobs = .ok st := by
    simp only [refLoop_iff]
    clear hjobs j1 j2
    induction jobs with
    | nil => exact ⟨[], .nil⟩
    | cons x l ih =>
      obtain ⟨st, h⟩ := ih fun x hx => hjl x (by simp [hx])
      obtain ⟨s', hs'⟩ := hjl x (by simp)
      exact ⟨(x.1, x.2.1, s') :: st, .cons ⟨rfl, rfl, hs'⟩ h⟩
  rw [hst]
  dsimp only
  rw [herr]
  dsimp only
  apply store_exists _ _ _ _ hd
  have := (refLoop_iff _ _ _ _ _).mp hst
  intro a ha
  obtain ⟨x, hx, hax⟩ := forall₂_mem_right this a ha
  rw [hax.2.1]
  obtain ⟨k1, k2⟩ := j2 x hx
  have hxo : x.1 ∈ others select ref := by rw [← j1]; exact List.mem_map_of_mem hx
  obtain ⟨p', t', h1, h2, h3, y0, y1, -⟩ := hu x.1 (((others_spec select ref).2 _).mp hxo).1
  have ep : x.2.1.dut = p' := by have := k1.dut; rw [h1] at this; injection this with this; exact this.symm
  have era := k1.ra
  have eda := k1.da
  rw [axes_eq p pp] at era
  rw [ep, axes_eq p' h3] at eda
  injection era with era
  injection eda with eda
  rw [← era, ← eda]
  have pos : ∀ (p : Plane) (hp : Spec.Proper p) (k : Fin 3) (r : ℝ), 0 < r → Extended p k → ⌈2 * halfSize p k / r⌉₊ ≠ 0 := by
    intro p hp k r hr hk
    have hz : InsideSensor p (0, 0) := by
      have h1 : (0 : ℝ) < p.pixels.nColumns := Nat.cast_pos.mpr hp.columns
      have h2 : (0 : ℝ) < p.pixels.nRows := Nat.cast_pos.mpr hp.rows
      have := hp.column
      have := hp.row
      constructor <;> (rw [abs_zero]; positivity)
    have := lt_of_le_of_lt (abs_nonneg _) (abs_lt_halfSize p hp (0, 0) hz k hk)
    have : 0 < ⌈2 * halfSize p k / r⌉₊ := Nat.ceil_pos.mpr (by positivity)
    omega
  exact ⟨pos p' h3 0 _ hr.1 y0, pos p pp 0 _ hr.1 x0, pos p' h3 1 _ hr.2 y1, pos p pp 1 _ hr.2 x1⟩

theorem correlateRefs_exists (tel : List Plane) (select : List Int) (files : List Table) (res : ℝ × ℝ) (hr : 0 < res.1 ∧ 0 < res.2) (cs : Nat)
    (lead : Leading) (done refs : List Int) (hd : ∀ r ∈ refs, r ∉ done) (hn : refs.Nodup) (href : ∀ r ∈ refs, r ∈ select)
    (hu : ∀ i ∈ select, Usable tel select files res cs i) : ∃ out, correlateRefs tel select files res cs lead done refs = .ok out := by
  induction refs generalizing done with
  | nil => exact ⟨_, rfl⟩
  | cons r refs ih =>
    obtain ⟨a, ha⟩ := correlateRef_exists tel select files res hr cs lead done r (hd r (by simp)) (href r (by simp)) hu
    obtain ⟨n1, n2⟩ := List.nodup_cons.mp hn
    obtain ⟨b, hb⟩ := ih (r :: done) (by
      intro x hx hm
      rcases List.mem_cons.mp hm with rfl | hm
      · exact n1 hx
      · exact hd x (by simp [hx]) hm) n2 fun x hx => href x (by simp [hx])
    unfold correlateRefs
    rw [ha]
    dsimp only
    rw [hb]
    exact ⟨_, rfl⟩

theorem correlate_exists (tel : List Plane) (select refs : Option (List Int)) (files : List Table) (res : ℝ × ℝ) (hr : 0 < res.1 ∧ 0 < res.2) (cs : Nat)
    (lead : Leading) (hv : ValidSelection tel.length (selectDuts tel select) (refs.getD (selectDuts tel select)) files)
    (hu : ∀ i ∈ selectDuts tel select, Usable tel (selectDuts tel select) files res cs i) :
    ∃ out, correlate tel files res select refs cs lead = (true, .ok out) := by
  obtain ⟨out, h⟩ := correlateRefs_exists tel (selectDuts tel select) files res hr cs lead [] _ (by simp) hv.nodup hv.selected hu
  refine ⟨out, ?_⟩
  unfold correlate
  dsimp only
  have hb : badSelection tel.length (selectDuts tel select) = false := by
    unfold badSelection
    have h1 := hv.nonempty
    have h2 := hv.inRange
    rw [Bool.or_eq_false_iff, Bool.or_eq_false_iff, List.any_eq_false, List.any_eq_false]
    refine ⟨⟨by simpa using h1, ?_⟩, ?_⟩
    · intro i hi
      have := h2 i hi
      simp only [decide_eq_true_eq]
      omega
    · intro i hi
      have := h2 i hi
      simp only [decide_eq_true_eq]
      omega
  rw [hb, if_neg (by simp), if_neg (by simp [hv.oneFileEach]), h]

theorem correlateRefs_files {tel : List Plane} {select : List Int} {files : List Table} {res : ℝ × ℝ} {cs : Nat} {lead : Leading}
    {done refs : List Int} {out : List Entry} (h : correlateRefs tel select files res cs lead done refs = .ok out) (r : Int) (hr : r ∈ refs) :
    ∃ t, getFile select files r = some t := by
  induction refs generalizing done out with
  | nil => simp at hr
  | cons x refs ih =>
    unfold correlateRefs at h
    split at h
    · cases h
    · next a ha =>
      split at h
      · cases h
      · next b hb =>
        rcases List.mem_cons.mp hr with rfl | hr
        · exact (correlateRef_pairs ha).2.2.2.1
        · exact ih hb hr

theorem correlateRef_unique {tel : List Plane} {select : List Int} {files : List Table} {res : ℝ × ℝ} {cs cs' : Nat} {lead : Leading}
    {done : List Int} {r : Int} {out out' : List Entry} (hcs : 0 < cs) (hcs' : 0 < cs')
    (hs : ∀ i t, getFile select files i = some t → SortedBy Row.ev t.rows)
    (h : correlateRef tel select files res cs lead done r = .ok out) (h' : correlateRef tel select files res cs' lead done r = .ok out') :
    out = out' := by
  obtain ⟨a1, a2, p, t, hp, ht, a3⟩ := correlateRef_spec tel select files res cs hcs lead done r out hs h
  obtain ⟨b1, b2, p', t', hp', ht', b3⟩ := correlateRef_spec tel select files res cs' hcs' lead done r out' hs h'
  rw [hp] at hp'
  rw [ht] at ht'
  injection hp' with hp'
  injection ht' with ht'
  subst hp' ht'
  have hlen : out.length = out'.length := by
    have := congrArg List.length (a1.trans b1.symm)
    simpa using this
  apply List.ext_getElem hlen
  intro n h1 h2
  have hdut : out[n].dut = out'[n].dut := by
    have := congrArg (fun l => l[n]?) (a1.trans b1.symm)
    simpa [List.getElem?_map, List.getElem?_eq_getElem h1, List.getElem?_eq_getElem h2] using this
  have m1 := List.getElem_mem h1
  have m2 := List.getElem_mem h2
  have hr1 := (a2 _ m1).1
  have hr2 := (b2 _ m2).1
  obtain ⟨j, hj, q1, q2, -, q3, q4, -, q5⟩ := a3 _ m1
  obtain ⟨j', hj', q1', q2', -, q3', q4', -, q5'⟩ := b3 _ m2
  have hjj : j = j' := by
    have e1 : j.dut = j'.dut := by have := hj.dut; rw [hdut, hj'.dut] at this; injection this with this; exact this.symm
    have e2 : j.table = j'.table := by have := hj.file; rw [hdut, hj'.file] at this; injection this with this; exact this.symm
    have e3 : j.ra = j'.ra := by have := hj.ra; rw [hj'.ra] at this; injection this with this; exact this.symm
    have e4 : j.da = j'.da := by have := hj.da; rw [e1, hj'.da] at this; injection this with this; exact this.symm
    have e5 := hj.reference.trans hj'.reference.symm
    have e6 := hj.refPositions.trans hj'.refPositions.symm
    cases j
    cases j'
    simp only at e1 e2 e3 e4 e5 e6
    subst e1 e2 e3 e4 e5 e6
    rfl
  subst hjj
  have ex : out[n].x = out'[n].x := by funext i k; rw [(q5 i k).1, (q5' i k).1]
  have ey : out[n].y = out'[n].y := by funext i k; rw [(q5 i k).2, (q5' i k).2]
  generalize out[n] = e at *
  generalize out'[n] = e' at *
  cases e
  cases e'
  simp only at *
  subst hdut ex ey q1 q2 q3 q4 q1' q2' q3' q4' hr1 hr2
  rfl

theorem correlateRefs_unique {tel : List Plane} {select : List Int} {files : List Table} {res : ℝ × ℝ} {cs cs' : Nat} {lead : Leading}
    {done refs : List Int} {out out' : List Entry} (hcs : 0 < cs) (hcs' : 0 < cs')
    (hs : ∀ i t, getFile select files i = some t → SortedBy Row.ev t.rows)
    (h : correlateRefs tel select files res cs lead done refs = .ok out) (h' : correlateRefs tel select files res cs' lead done refs = .ok out') :
    out = out' := by
  induction refs generalizing done out out' with
  | nil =>
    injection h with h
    injection h' with h'
    rw [← h, ← h']
  | cons x refs ih =>
    unfold correlateRefs at h h'
    split at h
    · cases h
    · next a ha =>
      split at h
      · cases h
      · next b hb =>
        injection h with h
        split at h'
        · cases h'
        · next a' ha' =>
          split at h'
          · cases h'
          · next b' hb' =>
            injection h' with h'
            rw [← h, ← h', correlateRef_unique hcs hcs' hs ha ha', ih hb hb']

theorem indices_inside (p : Plane) (hp : Spec.Proper p) (r : Row) (h1 : 1 ≤ r.coord.1) (h2 : r.coord.1 ≤ p.pixels.nColumns) (h3 : 1 ≤ r.coord.2)
    (h4 : r.coord.2 ≤ p.pixels.nRows) : InsideSensor p (localPos p false r) := by
  have c := hp.column
  have d := hp.row
  simp only [InsideSensor, localPos, Bool.false_eq_true, if_false]
  rw [abs_lt, abs_lt]
  refine ⟨⟨?_, ?_⟩, ?_, ?_⟩ <;> nlinarith

/-! ### Background -/

theorem toInt_spec (v : ℝ) : IntegerPart v (toInt v) := by
  unfold toInt IntegerPart
  split
  · next h =>
    have h1 : (0 : ℝ) ≤ (⌊v⌋ : ℝ) := by exact_mod_cast Int.floor_nonneg.mpr h
    rw [abs_of_nonneg h1, abs_of_nonneg h]
    exact ⟨Int.floor_le v, Int.lt_floor_add_one v, mul_nonneg h1 h⟩
  · next h =>
    push Not at h
    have h1 : (⌈v⌉ : ℝ) ≤ 0 := by
      have : ⌈v⌉ ≤ 0 := Int.ceil_le.mpr (by simpa using h.le)
      exact_mod_cast this
    rw [abs_of_nonpos h1, abs_of_neg h]
    have := Int.le_ceil v
    have := Int.ceil_lt_add_one v
    refine ⟨by linarith, by linarith, mul_nonneg_of_nonpos_of_nonpos h1 h.le⟩

theorem toInt_natCast (n : Nat) : toInt (n : ℝ) = n := by
  unfold toInt
  rw [if_pos (Nat.cast_nonneg n)]
  simp

theorem foldl_min_spec (l : List Int) (a : Int) : (∀ x ∈ a :: l, l.foldl min a ≤ x) ∧ l.foldl min a ∈ a :: l := by
  induction l generalizing a with
  | nil => simp
  | cons b l ih =>
    obtain ⟨h1, h2⟩ := ih (min a b)
    rw [List.foldl_cons]
    have h3 := h1 (min a b) (by simp)
    refine ⟨?_, ?_⟩
    · intro x hx
      rcases List.mem_cons.mp hx with rfl | hx
      · exact le_trans h3 (min_le_left _ _)
      · rcases List.mem_cons.mp hx with rfl | hx
        · exact le_trans h3 (min_le_right _ _)
        · exact h1 x (by simp [hx])
    · rcases List.mem_cons.mp h2 with h2 | h2
      · rw [h2]
        rcases min_choice a b with h | h <;> rw [h] <;> simp
      · simp [h2]

theorem minimum_spec (n m : Nat) (hn : n ≠ 0) (hm : m ≠ 0) (h : Nat → Nat → Int) :
    (∀ i < n, ∀ j < m, minimum n m h ≤ h i j) ∧ ∃ i < n, ∃ j < m, minimum n m h = h i j := by
  have hv : ∀ x, x ∈ values n m h ↔ ∃ i < n, ∃ j < m, h i j = x := by
    intro x
    simp [values]
  have hne : values n m h ≠ [] := by
    intro he
    have := (hv (h 0 0)).mpr ⟨0, by omega, 0, by omega, rfl⟩
    rw [he] at this
    simp at this
  cases hval : values n m h with
  | nil => exact absurd hval hne
  | cons a l =>
    have e : minimum n m h = l.foldl min a := by unfold minimum; rw [hval]; rfl
    obtain ⟨h1, h2⟩ := foldl_min_spec l a
    rw [e]
    refine ⟨fun i hi j hj => h1 _ ?_, ?_⟩
    · rw [← hval, hv]
      exact ⟨i, hi, j, hj, rfl⟩
    · rw [← hval, hv] at h2
      obtain ⟨i, hi, j, hj, hx⟩ := h2
      exact ⟨i, hi, j, hj, hx.symm⟩

/-- A singular triple of a product that is not zero: the value and the vectors. -/
theorem triple_product {n m : Nat} {h : Hist2} {a b : Nat → ℝ} (hab : ∀ i < n, ∀ j < m, (h i j : ℝ) = a i * b j) {u : Nat → ℝ} {d : ℝ} {v : Nat → ℝ}
    (ht : SingularTriple n m h u d v) (hd : d ≠ 0) :
    d * d = (∑ i ∈ Finset.range n, a i * a i) * (∑ j ∈ Finset.range m, b j * b j) ∧ ∀ i < n, ∀ j < m, u i * d * v j = a i * b j := by
  set A := ∑ i ∈ Finset.range n, a i * a i with hA
  set B := ∑ j ∈ Finset.range m, b j * b j with hB
  set α := ∑ i ∈ Finset.range n, a i * u i with hα
  set β := ∑ j ∈ Finset.range m, b j * v j with hβ
  have hr : ∀ i < n, a i * β = d * u i := by
    intro i hi
    rw [← ht.right i hi, hβ, Finset.mul_sum]
    apply Finset.sum_congr rfl
    intro j hj
    rw [hab i hi j (Finset.mem_range.mp hj)]
    ring
  have hl : ∀ j < m, b j * α = d * v j := by
    intro j hj
    rw [← ht.left j hj, hα, Finset.mul_sum]
    apply Finset.sum_congr rfl
    intro i hi
    rw [hab i (Finset.mem_range.mp hi) j hj]
    ring
  have e1 : d * α = A * β := by
    rw [hα, hA, Finset.mul_sum, Finset.sum_mul]
    apply Finset.sum_congr rfl
    intro i hi
    have := hr i (Finset.mem_range.mp hi)
    linear_combination -(a i) * this
  have e2 : d * β = B * α := by
    rw [hβ, hB, Finset.mul_sum, Finset.sum_mul]
    apply Finset.sum_congr rfl
    intro j hj
    have := hl j (Finset.mem_range.mp hj)
    linear_combination -(b j) * this
  have e3 : d = α * β := by
    have : d * ∑ i ∈ Finset.range n, u i * u i = β * α := by
      rw [hα, Finset.mul_sum, Finset.mul_sum]
      apply Finset.sum_congr rfl
      intro i hi
      have := hr i (Finset.mem_range.mp hi)
      linear_combination -(u i) * this
    rw [ht.unit] at this
    linarith
  have hα0 : α ≠ 0 := by rintro h; rw [h, zero_mul] at e3; exact hd e3
  refine ⟨?_, ?_⟩
  · apply mul_right_cancel₀ hα0
    calc d * d * α = d * (d * α) := by ring
      _ = A * (d * β) := by rw [e1]; ring
      _ = A * B * α := by rw [e2]; ring
  · intro i hi j hj
    apply mul_left_cancel₀ hd
    calc d * (u i * d * v j) = (d * u i) * (d * v j) := by ring
      _ = (a i * b j) * (α * β) := by rw [← hr i hi, ← hl j hj]; ring
      _ = d * (a i * b j) := by rw [← e3]; ring

theorem product_triple {n m : Nat} {h : Hist2} {a b : Nat → ℝ} (hab : ∀ i < n, ∀ j < m, (h i j : ℝ) = a i * b j)
    (hA : 0 < ∑ i ∈ Finset.range n, a i * a i) (hB : 0 < ∑ j ∈ Finset.range m, b j * b j) :
    SingularTriple n m h (fun i => a i / √(∑ i ∈ Finset.range n, a i * a i))
      (√(∑ i ∈ Finset.range n, a i * a i) * √(∑ j ∈ Finset.range m, b j * b j)) (fun j => b j / √(∑ j ∈ Finset.range m, b j * b j)) := by
  set A := ∑ i ∈ Finset.range n, a i * a i with hA'
  set B := ∑ j ∈ Finset.range m, b j * b j with hB'
  have sA : √A * √A = A := Real.mul_self_sqrt hA.le
  have sB : √B * √B = B := Real.mul_self_sqrt hB.le
  have pA : √A ≠ 0 := (Real.sqrt_pos.mpr hA).ne'
  have pB : √B ≠ 0 := (Real.sqrt_pos.mpr hB).ne'
  refine ⟨?_, ?_, ?_, ?_, by positivity⟩
  · intro i hi
    have : ∑ j ∈ Finset.range m, (h i j : ℝ) * (b j / √B) = a i / √B * B := by
      rw [hB', Finset.mul_sum]
      apply Finset.sum_congr rfl
      intro j hj
      rw [hab i hi j (Finset.mem_range.mp hj)]
      ring
    rw [this]
    field_simp
    rw [pow_two, sB]
  · intro j hj
    have : ∑ i ∈ Finset.range n, (h i j : ℝ) * (a i / √A) = b j / √A * A := by
      rw [hA', Finset.mul_sum]
      apply Finset.sum_congr rfl
      intro i hi
      rw [hab i (Finset.mem_range.mp hi) j hj]
      ring
    rw [this]
    field_simp
    rw [pow_two, sA]
  · have : ∑ i ∈ Finset.range n, a i / √A * (a i / √A) = A / (√A * √A) := by
      rw [div_eq_mul_inv]
      conv_rhs => rw [hA', Finset.sum_mul]
      apply Finset.sum_congr rfl
      intro i _
      rw [← hA']
      field_simp
    rw [this, sA, div_self hA.ne']
  · have : ∑ j ∈ Finset.range m, b j / √B * (b j / √B) = B / (√B * √B) := by
      rw [div_eq_mul_inv]
      conv_rhs => rw [hB', Finset.sum_mul]
      apply Finset.sum_congr rfl
      intro i _
      rw [← hB']
      field_simp
    rw [this, sB, div_self hB.ne']

/-- The term of the largest singular value of a product is the product. -/
theorem leading_product {n m : Nat} {h : Hist2} {a b : Nat → ℝ} (hab : ∀ i < n, ∀ j < m, (h i j : ℝ) = a i * b j) {f : Nat → Nat → ℝ}
    (hf : IsLeading n m h f) : ∀ i < n, ∀ j < m, f i j = h i j := by
  obtain ⟨u, d, v, ht, hmax, hf⟩ := hf
  intro i hi j hj
  rw [hf i hi j hj]
  by_cases hd : d = 0
  · -- all singular values are zero
    rw [hd, mul_zero, zero_mul, hab i hi j hj]
    by_contra hne
    have ha : a i ≠ 0 := by rintro h; rw [h, zero_mul] at hne; exact hne rfl
    have hb : b j ≠ 0 := by rintro h; rw [h, mul_zero] at hne; exact hne rfl
    have hA : 0 < ∑ i ∈ Finset.range n, a i * a i :=
      Finset.sum_pos' (fun i _ => mul_self_nonneg _) ⟨i, Finset.mem_range.mpr hi, mul_self_pos.mpr ha⟩
    have hB : 0 < ∑ j ∈ Finset.range m, b j * b j :=
      Finset.sum_pos' (fun i _ => mul_self_nonneg _) ⟨j, Finset.mem_range.mpr hj, mul_self_pos.mpr hb⟩
    have := hmax _ _ _ (product_triple hab hA hB)
    have h1 := Real.sqrt_pos.mpr hA
    have h2 := Real.sqrt_pos.mpr hB
    have := mul_pos h1 h2
    linarith
  · rw [(triple_product hab ht hd).2 i hi j hj, hab i hi j hj]

/-- A product that is not zero has a term of the largest singular value. -/
theorem product_leading {n m : Nat} {h : Hist2} {a b : Nat → ℝ} (hab : ∀ i < n, ∀ j < m, (h i j : ℝ) = a i * b j)
    (hA : 0 < ∑ i ∈ Finset.range n, a i * a i) (hB : 0 < ∑ j ∈ Finset.range m, b j * b j) : IsLeading n m h fun i j => h i j := by
  refine ⟨_, _, _, product_triple hab hA hB, ?_, ?_⟩
  · intro u' d' v' ht
    by_cases hd : d' = 0
    · rw [hd]; positivity
    · have := (triple_product hab ht hd).1
      rw [← Real.sqrt_mul hA.le]
      apply Real.le_sqrt_of_sq_le
      rw [pow_two]
      exact this.le
  · intro i hi j hj
    have pA : √(∑ i ∈ Finset.range n, a i * a i) ≠ 0 := (Real.sqrt_pos.mpr hA).ne'
    have pB : √(∑ j ∈ Finset.range m, b j * b j) ≠ 0 := (Real.sqrt_pos.mpr hB).ne'
    beta_reduce
    rw [hab i hi j hj]
    generalize √(∑ i ∈ Finset.range n, a i * a i) = x at *
    generalize √(∑ j ∈ Finset.range m, b j * b j) = y at *
    field_simp

end BTA.Corr
