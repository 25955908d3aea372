import Verif.Lemmas.ConvertCoordinates
import Mathlib.Data.Rat.Floor
/-
C90-C92: conversion of hit files between column/row and local positions.
-/
namespace BTA.Convert
open BTA.Dut BTA.Props BTA.Spec

variable {K : Type} [Field K] [LinearOrder K] [IsStrictOrderedRing K] [FloorSemiring K]

omit [LinearOrder K] [IsStrictOrderedRing K] [FloorSemiring K] in
theorem no_other (names : List String) (hn : (outNames true names).Nodup) (a b : String) (ha : a ∈ names) (hb : b ∈ names)
    (hne : a ≠ b) : outNames true [a] ≠ outNames true [b] := by
  intro h
  have h2 : (names.map fun n => if n = "column" then "x" else if n = "row" then "y" else n).Nodup := hn
  have := List.inj_on_of_nodup_map h2 ha hb
  apply hne
  apply this
  simpa [outNames] using h

theorem localHit_newRow (d : Pixels K) (names : List String) (hn : (outNames true names).Nodup) (hc : "column" ∈ names)
    (hw : "row" ∈ names) (r : Row K) : LocalHit d names r (newRow true d r) := by
  refine ⟨rfl, ?_, ?_, ?_⟩
  · simp only [newRow, if_true, localRow, setLocal, centre]
    ring
  · simp only [newRow, if_true, localRow, setLocal, centre]
    rw [if_neg (by decide)]
    ring
  · intro n hmem h1 h2
    have hx : n ≠ "x" := by
      rintro rfl
      exact no_other names hn "x" "column" hmem hc (by decide) (by simp [outNames])
    have hy : n ≠ "y" := by
      rintro rfl
      exact no_other names hn "y" "row" hmem hw (by decide) (by simp [outNames])
    simp [newRow, localRow, setLocal, hx, hy]

/-- C90: a converted file has the hits of the input file in the same order, each with the centre of its pixel as position and all
other columns unchanged; no other file changes. -/
theorem C90_positions (stem : String → String) (cs : Nat) (hcs : 0 < cs) (d : Pixels K) (fs fs' : Files K) (input name : String)
    (t : Table K) (ht : fs input = some t) (hs : SortedBy Row.event t.rows)
    (h : convertCoordinates stem true cs d fs input none = .ok (fs', name)) :
    name = stem input ++ "_local_coordinates.h5" ∧ (∀ n, n ≠ name → fs' n = fs n) ∧
    ∃ t', fs' name = some t' ∧
      t'.names = t.names.map (fun n => if n = "column" then "x" else if n = "row" then "y" else n) ∧
      List.Forall₂ (LocalHit d t.names) t.rows t'.rows := by
  simp only [convertCoordinates, convertTo, ht] at h
  cases hc : convertTable true cs d t with
  | error e => rw [hc] at h; simp at h
  | ok t' =>
    rw [hc] at h
    injection h with h
    injection h with h1 h2
    subst h2
    obtain ⟨g1, g2, g3, g4, g5⟩ := convertTable_ok true cs hcs d t t' hs hc
    refine ⟨by simp [suffix], ?_, t', ?_, g4, ?_⟩
    · intro n hn
      rw [← h1]
      simp [write, hn]
    · rw [← h1]
      simp [write]
    · rw [g5, List.forall₂_map_right_iff, List.forall₂_same]
      intro r hr
      have : t.rows ≠ [] := List.ne_nil_of_mem hr
      obtain ⟨hc, hw⟩ : "column" ∈ t.names ∧ "row" ∈ t.names := g2 this
      exact localHit_newRow d t.names g1 hc hw r

theorem rename_inj (a b : String) (hax : a ≠ "x") (hay : a ≠ "y") (hbx : b ≠ "x") (hby : b ≠ "y")
    (h : (if a = "column" then "x" else if a = "row" then "y" else a) = if b = "column" then "x" else if b = "row" then "y" else b) :
    a = b := by
  by_cases ha : a = "column"
  · rw [if_pos ha] at h
    by_cases hb : b = "column"
    · rw [ha, hb]
    · rw [if_neg hb] at h
      split at h
      · exact absurd h (by decide)
      · exact absurd h.symm hbx
  · rw [if_neg ha] at h
    by_cases ha' : a = "row"
    · rw [if_pos ha'] at h
      by_cases hb : b = "column"
      · rw [if_pos hb] at h; exact absurd h (by decide)
      · rw [if_neg hb] at h
        split at h
        · rename_i hb'; rw [ha', hb']
        · exact absurd h.symm hby
    · rw [if_neg ha'] at h
      split at h
      · exact absurd h hax
      · split at h
        · exact absurd h hay
        · exact h

/-- C90: the conversion succeeds exactly if all hits are on the sensor, provided that the file has the columns and every event fits
into a chunk. -/
theorem C90_succeeds_iff (stem : String → String) (cs : Nat) (d : Pixels K) (fs : Files K) (input : String)
    (t : Table K) (ht : fs input = some t) (hs : SortedBy Row.event t.rows)
    (hm : ∀ e, BTA.Spec.multiplicity Row.event t.rows e < cs) (hn : t.names.Nodup) (hc : "column" ∈ t.names) (hw : "row" ∈ t.names)
    (hx : "x" ∉ t.names) (hy : "y" ∉ t.names) :
    (∃ q, convertCoordinates stem true cs d fs input none = .ok q) ↔ ∀ r ∈ t.rows, OnSensor d r := by
  have hcs : 0 < cs := by have := hm 0; omega
  simp only [convertCoordinates, convertTo, ht]
  constructor
  · rintro ⟨q, h⟩
    cases hc : convertTable true cs d t with
    | error e => rw [hc] at h; simp at h
    | ok t' => exact (convertTable_ok true cs hcs d t t' hs hc).2.2.1
  · intro h
    have hnd : (outNames true t.names).Nodup := by
      simp only [outNames, if_true]
      refine List.Nodup.map_on ?_ hn
      intro a ha b hb hab
      have hax : a ≠ "x" := fun h => hx (h ▸ ha)
      have hbx : b ≠ "x" := fun h => hx (h ▸ hb)
      have hay : a ≠ "y" := fun h => hy (h ▸ ha)
      have hby : b ≠ "y" := fun h => hy (h ▸ hb)
      exact rename_inj a b hax hay hbx hby hab
    rw [convertTable_exists true cs d t hs hm hnd (fun _ => ⟨hc, hw⟩) h]
    exact ⟨_, rfl⟩

/-- C90, C91: the result of a conversion in either direction does not depend on the size of the chunks. -/
theorem C90_chunk_size (b : Bool) (cs cs' : Nat) (hcs : 0 < cs) (hcs' : 0 < cs') (d : Pixels K) (t u v : Table K)
    (hs : SortedBy Row.event t.rows) (h : convertTable b cs d t = .ok u) (h' : convertTable b cs' d t = .ok v) : u = v := by
  obtain ⟨-, -, -, a1, a2⟩ := convertTable_ok b cs hcs d t u hs h
  obtain ⟨-, -, -, b1, b2⟩ := convertTable_ok b cs' hcs' d t v hs h'
  cases u; cases v
  simp_all

/-- The uint16 of the index of a position in the right half of a pixel. -/
theorem index_right (n : Nat) (s x : K) (c : Nat) (hs : 0 < s) (hn : n < 2 ^ 16) (hc : c ≤ n) (h : InPixel n s c x)
    (hh : centre n s (c : K) ≤ x) : toUint16 (x / s + 1/2 + 1/2 * n) = (c : K) := by
  have h1 : (c : K) - 1/2 - n / 2 ≤ x / s := by
    rw [le_div_iff₀ hs]
    refine le_trans (le_of_eq ?_) hh
    unfold centre; ring
  have h2 : x / s < (c : K) - n / 2 := by
    rw [div_lt_iff₀ hs]
    exact h.2
  have hc0 : (0 : K) ≤ c := Nat.cast_nonneg c
  have hf : ⌊x / s + 1/2 + 1/2 * (n : K)⌋₊ = c := by
    rw [Nat.floor_eq_iff (by linarith)]
    constructor <;> linarith
  unfold toUint16
  rw [hf, Nat.mod_eq_of_lt (by omega)]

/-- The uint16 of the index of a position in the left half of a pixel. -/
theorem index_left (n : Nat) (s x : K) (c : Nat) (hs : 0 < s) (hn : n < 2 ^ 16) (h1c : 1 ≤ c) (hc : c ≤ n) (h : InPixel n s c x)
    (hh : x < centre n s (c : K)) : toUint16 (x / s + 1/2 + 1/2 * n) = ((c - 1 : Nat) : K) := by
  have h1 : (c : K) - 1 - n / 2 ≤ x / s := by
    rw [le_div_iff₀ hs]
    exact h.1
  have h2 : x / s < (c : K) - 1/2 - n / 2 := by
    rw [div_lt_iff₀ hs]
    refine lt_of_lt_of_eq hh ?_
    unfold centre; ring
  have hc0 : (1 : K) ≤ c := by exact_mod_cast h1c
  have hcast : ((c - 1 : Nat) : K) = (c : K) - 1 := by push_cast [Nat.cast_sub h1c]; rfl
  have hf : ⌊x / s + 1/2 + 1/2 * (n : K)⌋₊ = c - 1 := by
    rw [Nat.floor_eq_iff (by linarith), hcast]
    constructor <;> linarith
  unfold toUint16
  rw [hf, Nat.mod_eq_of_lt (by omega)]

theorem index_values (d : Pixels K) (cs : Nat) (hcs : 0 < cs) (t t' : Table K) (hs : SortedBy Row.event t.rows)
    (h : convertTable false cs d t = .ok t') (k : Nat) (r r' : Row K) (hr : t.rows[k]? = some r) (hr' : t'.rows[k]? = some r') :
    r'.value "column" = toUint16 (r.value "x" / d.columnSize + 1/2 + 1/2 * d.nColumns) ∧
    r'.value "row" = toUint16 (r.value "y" / d.rowSize + 1/2 + 1/2 * d.nRows) := by
  obtain ⟨-, -, -, -, g⟩ := convertTable_ok false cs hcs d t t' hs h
  rw [g, List.getElem?_map, hr] at hr'
  simp only [Option.map_some, Option.some.injEq] at hr'
  subst hr'
  constructor
  · simp [newRow, indexRow, setIndex]
  · simp [newRow, indexRow, setIndex]

/-- C91 (true part): a position is given the column of the pixel it lies in if it lies in the right half of that pixel, and the row
if it lies in the upper half. Missing: the other halves, see `C91_lower_half`. -/
theorem C91_pixel_partial (d : Pixels K) (hsx : 0 < d.columnSize) (hsy : 0 < d.rowSize) (hnx : d.nColumns < 2 ^ 16)
    (hny : d.nRows < 2 ^ 16) (cs : Nat) (hcs : 0 < cs) (t t' : Table K) (hs : SortedBy Row.event t.rows)
    (h : convertTable false cs d t = .ok t') (k : Nat) (r r' : Row K) (hr : t.rows[k]? = some r) (hr' : t'.rows[k]? = some r') :
    (∀ c : Nat, c ≤ d.nColumns → InPixel d.nColumns d.columnSize c (r.value "x") →
      centre d.nColumns d.columnSize (c : K) ≤ r.value "x" → r'.value "column" = c) ∧
    (∀ w : Nat, w ≤ d.nRows → InPixel d.nRows d.rowSize w (r.value "y") →
      centre d.nRows d.rowSize (w : K) ≤ r.value "y" → r'.value "row" = w) := by
  obtain ⟨h1, h2⟩ := index_values d cs hcs t t' hs h k r r' hr hr'
  refine ⟨fun c hc hp hh => ?_, fun w hw hp hh => ?_⟩
  · rw [h1]; exact index_right _ _ _ c hsx hnx hc hp hh
  · rw [h2]; exact index_right _ _ _ w hsy hny hw hp hh

/-- C91 (negation): a position in the left half of a pixel is given the column of the pixel before, and a position in the lower half
the row of the pixel before: column 0 or row 0, which does not exist, at the border of the sensor. -/
theorem C91_lower_half (d : Pixels K) (hsx : 0 < d.columnSize) (hsy : 0 < d.rowSize) (hnx : d.nColumns < 2 ^ 16)
    (hny : d.nRows < 2 ^ 16) (cs : Nat) (hcs : 0 < cs) (t t' : Table K) (hs : SortedBy Row.event t.rows)
    (h : convertTable false cs d t = .ok t') (k : Nat) (r r' : Row K) (hr : t.rows[k]? = some r) (hr' : t'.rows[k]? = some r') :
    (∀ c : Nat, 1 ≤ c → c ≤ d.nColumns → InPixel d.nColumns d.columnSize c (r.value "x") →
      r.value "x" < centre d.nColumns d.columnSize (c : K) → r'.value "column" = ((c - 1 : Nat) : K)) ∧
    (∀ w : Nat, 1 ≤ w → w ≤ d.nRows → InPixel d.nRows d.rowSize w (r.value "y") →
      r.value "y" < centre d.nRows d.rowSize (w : K) → r'.value "row" = ((w - 1 : Nat) : K)) := by
  obtain ⟨h1, h2⟩ := index_values d cs hcs t t' hs h k r r' hr hr'
  refine ⟨fun c h1c hc hp hh => ?_, fun w h1w hw hp hh => ?_⟩
  · rw [h1]; exact index_left _ _ _ c hsx hnx h1c hc hp hh
  · rw [h2]; exact index_left _ _ _ w hsy hny h1w hw hp hh

omit [LinearOrder K] [IsStrictOrderedRing K] [FloorSemiring K] [Field K] in
theorem outNames_back (names : List String) (hx : "x" ∉ names) (hy : "y" ∉ names) (hz : "z" ∉ names) :
    outNames false (outNames true names) = names := by
  induction names with
  | nil => rfl
  | cons n l ih =>
    simp only [List.mem_cons, not_or] at hx hy hz
    have := ih hx.2 hy.2 hz.2
    simp only [outNames, if_true, Bool.false_eq_true, if_false, List.map_cons] at this ⊢
    by_cases hc : n = "column"
    · rw [if_pos hc, List.filterMap_cons_some (b := "column") (by simp), this, hc]
    · rw [if_neg hc]
      by_cases hw : n = "row"
      · rw [if_pos hw, List.filterMap_cons_some (b := "row") (by simp), this, hw]
      · rw [if_neg hw, List.filterMap_cons_some (b := n) (by simp [Ne.symm hx.1, Ne.symm hy.1, Ne.symm hz.1]), this]

theorem toUint16_nat (n : Nat) (h : n < 2 ^ 16) : toUint16 (n : K) = n := by
  unfold toUint16
  rw [Nat.floor_natCast, Nat.mod_eq_of_lt h]

/-- C91: converting hits of pixels to local positions and back restores the table. -/
theorem C91_there_and_back (d : Pixels K) (hsx : 0 < d.columnSize) (hsy : 0 < d.rowSize) (hnx : d.nColumns < 2 ^ 16)
    (hny : d.nRows < 2 ^ 16) (cs cs' : Nat) (t : Table K) (hs : SortedBy Row.event t.rows)
    (hm : ∀ e, BTA.Spec.multiplicity Row.event t.rows e < cs) (hm' : ∀ e, BTA.Spec.multiplicity Row.event t.rows e < cs')
    (hn : t.names.Nodup) (hc : "column" ∈ t.names) (hw : "row" ∈ t.names)
    (hx : "x" ∉ t.names) (hy : "y" ∉ t.names) (hz : "z" ∉ t.names) (hp : ∀ r ∈ t.rows, PixelHit d r) :
    ∃ t1 t2, convertTable true cs d t = .ok t1 ∧ convertTable false cs' d t1 = .ok t2 ∧ t2.names = t.names ∧
      List.Forall₂ (fun r r2 => r2.event = r.event ∧ ∀ n ∈ t.names, r2.value n = r.value n) t.rows t2.rows := by
  have hnd : (outNames true t.names).Nodup := by
    simp only [outNames, if_true]
    refine List.Nodup.map_on ?_ hn
    intro a ha b hb hab
    exact rename_inj a b (fun h => hx (h ▸ ha)) (fun h => hy (h ▸ ha)) (fun h => hx (h ▸ hb)) (fun h => hy (h ▸ hb)) hab
  have hon : ∀ r ∈ t.rows, OnSensor d r := by
    intro r hr
    obtain ⟨c, w, h1, h2, h3, h4, h5, h6⟩ := hp r hr
    have h3' : (1 : K) ≤ c := by exact_mod_cast h3
    have h4' : (c : K) ≤ d.nColumns := by exact_mod_cast h4
    have h5' : (1 : K) ≤ w := by exact_mod_cast h5
    have h6' : (w : K) ≤ d.nRows := by exact_mod_cast h6
    refine ⟨?_, ?_, ?_, ?_⟩
    · rw [h1]; linarith
    · rw [h1]; linarith
    · rw [h2]; linarith
    · rw [h2]; linarith
  have h1 := convertTable_exists true cs d t hs hm hnd (fun _ => ⟨hc, hw⟩) hon
  have hev : ∀ l : List (Row K), (l.map (newRow true d)).map Row.event = l.map Row.event := by
    intro l
    rw [List.map_map]
    rfl
  have hs1 : SortedBy Row.event (t.rows.map (newRow true d)) := by
    unfold SortedBy
    rw [List.pairwise_map]
    exact hs
  have hm1 : ∀ e, BTA.Spec.multiplicity Row.event (t.rows.map (newRow true d)) e < cs' := by
    intro e
    have : BTA.Spec.multiplicity Row.event (t.rows.map (newRow true d)) e = BTA.Spec.multiplicity Row.event t.rows e := by
      unfold BTA.Spec.multiplicity
      rw [List.filter_map, List.length_map]
      rfl
    rw [this]
    exact hm' e
  have hpos : ∀ r ∈ t.rows.map (newRow true d), RowOk false d r := by
    intro r hr
    obtain ⟨r0, hr0, rfl⟩ := List.mem_map.mp hr
    obtain ⟨a1, a2, a3, a4⟩ := hon r0 hr0
    obtain ⟨-, b1, b2, -⟩ := localHit_newRow d t.names hnd hc hw r0
    refine ⟨?_, ?_⟩
    · rw [b1, centre, abs_le]
      constructor
      · have := mul_le_mul_of_nonneg_right a1 hsx.le
        linarith
      · have := mul_le_mul_of_nonneg_right a2 hsx.le
        linarith
    · rw [b2, centre, abs_le]
      constructor
      · have := mul_le_mul_of_nonneg_right a3 hsy.le
        linarith
      · have := mul_le_mul_of_nonneg_right a4 hsy.le
        linarith
  have hx1 : "x" ∈ outNames true t.names := by
    simp only [outNames, if_true]
    exact List.mem_map.mpr ⟨"column", hc, rfl⟩
  have hy1 : "y" ∈ outNames true t.names := by
    simp only [outNames, if_true]
    exact List.mem_map.mpr ⟨"row", hw, rfl⟩
  have h2 := convertTable_exists false cs' d { names := outNames true t.names, rows := t.rows.map (newRow true d) } hs1 hm1
    (by dsimp only; rw [outNames_back _ hx hy hz]; exact hn) (fun _ => ⟨hx1, hy1⟩) hpos
  refine ⟨_, _, h1, h2, outNames_back _ hx hy hz, ?_⟩
  dsimp only
  rw [List.map_map, List.forall₂_map_right_iff, List.forall₂_same]
  intro r hr
  obtain ⟨c, w, e1, e2, -, c2, -, w2⟩ := hp r hr
  refine ⟨rfl, ?_⟩
  intro n hmem
  have hcol : (newRow false d (newRow true d r)).value "column" = r.value "column" := by
    have e : (newRow true d r).value "x" / d.columnSize + 1/2 + 1/2 * (d.nColumns : K) = c := by
      simp only [newRow, localRow, setLocal, if_true]
      rw [e1]
      have := hsx.ne'
      field_simp
      ring
    have : (newRow false d (newRow true d r)).value "column" =
        toUint16 ((newRow true d r).value "x" / d.columnSize + 1/2 + 1/2 * (d.nColumns : K)) := by
      generalize newRow true d r = q
      simp [newRow, indexRow, setIndex]
    rw [this, e, e1, toUint16_nat c (by omega)]
  have hrow : (newRow false d (newRow true d r)).value "row" = r.value "row" := by
    have e : (newRow true d r).value "y" / d.rowSize + 1/2 + 1/2 * (d.nRows : K) = w := by
      simp only [newRow, localRow, setLocal, if_true]
      rw [if_neg (by decide), e2]
      have := hsy.ne'
      field_simp
      ring
    have : (newRow false d (newRow true d r)).value "row" =
        toUint16 ((newRow true d r).value "y" / d.rowSize + 1/2 + 1/2 * (d.nRows : K)) := by
      generalize newRow true d r = q
      simp [newRow, indexRow, setIndex]
    rw [this, e, e2, toUint16_nat w (by omega)]
  by_cases h1 : n = "column"
  · rw [h1]; exact hcol
  by_cases h2 : n = "row"
  · rw [h2]; exact hrow
  have h3 : n ≠ "x" := fun h => hx (h ▸ hmem)
  have h4 : n ≠ "y" := fun h => hy (h ▸ hmem)
  simp [newRow, indexRow, setIndex, localRow, setLocal, h1, h2, h3, h4]

/-- C92: what `convert` does without output file names: the selected DUTs, in the order of the telescope, are combined with the first
input files; returns the DUTs used. -/
theorem convert_none (stem : String → String) (b : Bool) (cs : Nat) (telescope : List (Pixels K)) (fs : Files K)
    (inputs : List String) (select : Option (List Int)) (q : Files K × List String)
    (h : convert stem b cs telescope fs inputs none select = .ok q) :
    (selection telescope.length select).length = inputs.length ∧
    convertLoop stem b cs (selected telescope (selection telescope.length select)) fs inputs (inputs.map fun _ => none) = .ok q := by
  unfold convert at h
  dsimp only at h
  split at h
  · simp at h
  · split at h
    · simp at h
    · rename_i hl
      split at h
      · simp at h
      · exact ⟨not_not.mp hl, h⟩

theorem selected_card (telescope : List (Pixels K)) (sel : List Int) :
    (selected telescope sel).length = ((List.range' 0 telescope.length).filter fun i : Nat => (i : Int) ∈ sel).length := by
  unfold selected
  rw [List.length_map]
  exact selected_length 0 telescope sel

/-- C92 (true part): if the DUTs are selected in increasing order (as by default) and no output files are given, every input file is
converted with the DUT at the same place of the selection, and nothing else on disk changes. Missing: other orders and given output
files, see `C92_order_ignored` and `C92_output_files`. -/
theorem C92_pairs_partial (stem : String → String) (b : Bool) (cs : Nat) (telescope : List (Pixels K)) (fs fs' : Files K)
    (inputs names : List String) (select : Option (List Int)) (sel : List Int)
    (hsel : sel = select.getD ((List.range telescope.length).map fun i : Nat => (i : Int)))
    (hinc : sel.Pairwise (· < ·)) (hr : ∀ s ∈ sel, 0 ≤ s ∧ s < telescope.length)
    (hout : ∀ i ∈ inputs, ∀ j ∈ inputs, stem i ++ suffix b ≠ j) (hnd : (inputs.map fun i => stem i ++ suffix b).Nodup)
    (h : convert stem b cs telescope fs inputs none select = .ok (fs', names)) :
    names = inputs.map (fun i => stem i ++ suffix b) ∧ (∀ n, n ∉ names → fs' n = fs n) ∧
    ∀ (k : Nat) s i, sel[k]? = some s → inputs[k]? = some i →
      ∃ d t t', telescope[s.toNat]? = some d ∧ fs i = some t ∧ convertTable b cs d t = .ok t' ∧
        fs' (stem i ++ suffix b) = some t' := by
  have hsel' : selection telescope.length select = sel := by
    rw [hsel]
    cases select <;> rfl
  obtain ⟨hl, h⟩ := convert_none stem b cs telescope fs inputs select _ h
  rw [hsel'] at hl h
  have hmap := selectedFrom_sorted 0 telescope sel hinc (by
    intro s hs
    have := hr s hs
    simpa using this)
  have hlen : (selected telescope sel).length = sel.length := by
    have := congrArg List.length hmap
    simpa [selected] using this
  obtain ⟨g1, g2, g3⟩ := convertLoop_ok stem b cs _ fs fs' inputs names (by omega) hout hnd h
  refine ⟨?_, g2, ?_⟩
  · rw [g1, hlen, hl, List.take_length]
  · intro k s i hk hi
    have hd : (selected telescope sel).map some = sel.map fun s => telescope[(s - ((0 : Nat) : Int)).toNat]? := hmap
    have hk' := congrArg (fun l => l[k]?) hd
    simp only [List.getElem?_map, hk, Option.map_some] at hk'
    cases hg : (selected telescope sel)[k]? with
    | none => rw [hg] at hk'; simp at hk'
    | some d =>
      rw [hg] at hk'
      simp only [Option.map_some, Option.some.injEq] at hk'
      obtain ⟨t, t', a1, a2, a3⟩ := g3 k d i hg hi
      refine ⟨d, t, t', ?_, a1, a2, a3⟩
      rw [hk']
      simp

/-- C92 (negation): the order of the selection has no effect: two lists of the same length with the same DUTs give the same result,
for the same list of input files. -/
theorem C92_order_ignored (stem : String → String) (b : Bool) (cs : Nat) (telescope : List (Pixels K)) (fs : Files K)
    (inputs : List String) (outs : Option (List String)) (sel sel' : List Int) (hl : sel.length = sel'.length)
    (hm : ∀ s, s ∈ sel ↔ s ∈ sel') :
    convert stem b cs telescope fs inputs outs (some sel) = convert stem b cs telescope fs inputs outs (some sel') := by
  have h1 : badSelect telescope.length sel = badSelect telescope.length sel' := by
    unfold badSelect
    have ha : sel.isEmpty = sel'.isEmpty := by
      cases sel <;> cases sel' <;> simp_all
    rw [ha]
    congr 1
    rw [Bool.eq_iff_iff, List.any_eq_true, List.any_eq_true]
    constructor
    · rintro ⟨s, hs, h⟩; exact ⟨s, (hm s).mp hs, h⟩
    · rintro ⟨s, hs, h⟩; exact ⟨s, (hm s).mpr hs, h⟩
  have h2 : selected telescope sel = selected telescope sel' := by
    unfold selected
    congr 1
    refine List.filter_congr fun p _ => ?_
    rw [decide_eq_decide]
    exact hm _
  have h0 : ∀ l : List Int, selection telescope.length (some l) = l := fun _ => rfl
  simp only [convert, h0, h1, h2, hl]

/-- C92 (negation): if the selection contains a DUT twice, or the number of DUTs itself (which is accepted), files at the end of the
list are silently not converted. -/
theorem C92_dropped (stem : String → String) (b : Bool) (cs : Nat) (telescope : List (Pixels K)) (fs fs' : Files K)
    (inputs names : List String) (sel : List Int) (hbad : ¬ (sel.Nodup ∧ ∀ s ∈ sel, s < telescope.length))
    (hout : ∀ i ∈ inputs, ∀ j ∈ inputs, stem i ++ suffix b ≠ j) (hnd : (inputs.map fun i => stem i ++ suffix b).Nodup)
    (h : convert stem b cs telescope fs inputs none (some sel) = .ok (fs', names)) :
    ∃ k, k < inputs.length ∧ names = (inputs.take k).map (fun i => stem i ++ suffix b) ∧ ∀ n, n ∉ names → fs' n = fs n := by
  obtain ⟨hl, h⟩ := convert_none stem b cs telescope fs inputs _ _ h
  simp only [selection] at hl h
  have hle := distinct_le telescope.length sel
  have hne : ((List.range' 0 telescope.length).filter fun i : Nat => (i : Int) ∈ sel).length ≠ sel.length := by
    intro he
    obtain ⟨h1, h2⟩ := distinct_eq telescope.length sel he
    exact hbad ⟨h1, fun s hs => (h2 s hs).2⟩
  rw [← selected_card] at hle hne
  obtain ⟨g1, g2, -⟩ := convertLoop_ok stem b cs _ fs fs' inputs names (by omega) hout hnd h
  exact ⟨_, by omega, g1, g2⟩

/-- C92 (negation): with output files given nothing is ever converted: the call only succeeds if no DUT is selected at all. -/
theorem C92_output_files (stem : String → String) (b : Bool) (cs : Nat) (telescope : List (Pixels K)) (fs fs' : Files K)
    (inputs outs names : List String) (select : Option (List Int))
    (h : convert stem b cs telescope fs inputs (some outs) select = .ok (fs', names)) :
    names = [] ∧ fs' = fs ∧ ∀ s ∈ select.getD ((List.range telescope.length).map fun i : Nat => (i : Int)), s = telescope.length := by
  unfold convert at h
  dsimp only at h
  have hsel' : selection telescope.length select = select.getD ((List.range telescope.length).map fun i : Nat => (i : Int)) := by
    cases select <;> rfl
  rw [hsel'] at h
  generalize select.getD ((List.range telescope.length).map fun i : Nat => (i : Int)) = sel at h ⊢
  split at h
  · simp at h
  · rename_i hbad
    split at h
    · simp at h
    · split at h
      · simp at h
      · cases hd : selected telescope sel with
        | cons d ds =>
          exfalso
          rw [hd] at h
          cases inputs with
          | nil => simp [convertLoop] at h
          | cons i is =>
            cases outs with
            | nil => simp [convertLoop, outputs] at h
            | cons o os =>
              simp only [outputs, List.map_cons, convertLoop, convertCoordinates] at h
              by_cases hi : (fs i).isSome
              · rw [if_pos hi] at h; simp at h
              · rw [if_neg hi] at h; simp at h
        | nil =>
          rw [hd, convertLoop] at h
          injection h with h
          injection h with h1 h2
          refine ⟨h2.symm, h1.symm, ?_⟩
          intro s hs
          unfold badSelect at hbad
          rw [Bool.or_eq_true, not_or, List.any_eq_true] at hbad
          have h3 : ¬ (((telescope.length : Int) < s || s < 0) = true) := fun h => hbad.2 ⟨s, hs, h⟩
          rw [Bool.or_eq_true, decide_eq_true_iff, decide_eq_true_iff] at h3
          by_contra h4
          have hlt : s.toNat < telescope.length := by omega
          have hmem : (telescope[s.toNat], s.toNat) ∈ telescope.zipIdx := by
            rw [List.mem_zipIdx_iff_getElem?]
            exact List.getElem?_eq_getElem hlt
          have : telescope[s.toNat] ∈ selected telescope sel := by
            unfold selected
            refine List.mem_map.mpr ⟨_, List.mem_filter.mpr ⟨hmem, ?_⟩, rfl⟩
            simp only [decide_eq_true_iff]
            have : ((s.toNat : Nat) : Int) = s := by omega
            rw [this]
            exact hs
          rw [hd] at this
          simp at this

/-- C92: and the conversion of a list of files succeeds if that of every single file does. -/
theorem C92_succeeds (stem : String → String) (b : Bool) (cs : Nat) (telescope : List (Pixels K)) (fs : Files K)
    (inputs : List String) (sel : List Int) (hne : sel ≠ []) (hl : sel.length = inputs.length)
    (hinc : sel.Pairwise (· < ·)) (hr : ∀ s ∈ sel, 0 ≤ s ∧ s < telescope.length)
    (hout : ∀ i ∈ inputs, ∀ j ∈ inputs, stem i ++ suffix b ≠ j)
    (hok : ∀ (k : Nat) s i d, sel[k]? = some s → inputs[k]? = some i → telescope[s.toNat]? = some d →
      ∃ t t', fs i = some t ∧ convertTable b cs d t = .ok t') :
    ∃ q, convert stem b cs telescope fs inputs none (some sel) = .ok q := by
  have hmap := selectedFrom_sorted 0 telescope sel hinc (by
    intro s hs
    have := hr s hs
    simpa using this)
  have hd : (selected telescope sel).map some = sel.map fun s => telescope[(s - ((0 : Nat) : Int)).toNat]? := hmap
  have hlen : (selected telescope sel).length = sel.length := by
    have := congrArg List.length hmap
    simpa [selected] using this
  obtain ⟨fs', ns, h⟩ := convertLoop_exists stem b cs (selected telescope sel) fs inputs (by omega) hout (by
    intro k d i hk hi
    have hk' := congrArg (fun l => l[k]?) hd
    simp only [List.getElem?_map, hk, Option.map_some] at hk'
    cases hs : sel[k]? with
    | none => rw [hs] at hk'; simp at hk'
    | some s =>
      rw [hs] at hk'
      simp only [Option.map_some, Option.some.injEq] at hk'
      exact hok k s i d hs hi (by rw [hk']; simp))
  refine ⟨(fs', ns), ?_⟩
  have h0 : selection telescope.length (some sel) = sel := rfl
  have hb : badSelect telescope.length sel = false := by
    unfold badSelect
    rw [Bool.or_eq_false_iff, List.any_eq_false]
    refine ⟨by simpa using hne, ?_⟩
    intro s hs
    have := hr s hs
    rw [Bool.or_eq_true, decide_eq_true_iff, decide_eq_true_iff]
    omega
  simp only [convert, h0, hb, hl, outputsMatch, outputs, ne_eq, not_true_eq_false, if_false, Bool.false_eq_true, reduceCtorEq]
  exact h

/-! A sensor with 4 columns of 250 um and 2 rows of 50 um, and a file with three hits. -/

def demoDut : Pixels ℚ := { columnSize := 250, rowSize := 50, nColumns := 4, nRows := 2 }

def demoRow (e : Int) (c w q : ℚ) : Row ℚ :=
  { event := e, value := fun n => if n = "column" then c else if n = "row" then w else if n = "charge" then q else 0 }

def demoTable : Table ℚ := { names := ["column", "row", "charge"], rows := [demoRow 1 1 1 7, demoRow 1 4 2 3, demoRow 5 2 1 9] }

theorem row_column : ("row" = "column") = False := by decide

theorem y_x : ("y" = "x") = False := by decide

theorem demo_sorted : SortedBy Row.event demoTable.rows := by
  simp [SortedBy, demoTable, demoRow]

theorem demo_small (e : Int) : BTA.Spec.multiplicity Row.event demoTable.rows e < 4 := by
  unfold BTA.Spec.multiplicity
  exact lt_of_le_of_lt (List.length_filter_le _ _) (by decide)

theorem demo_on (r : Row ℚ) (hr : r ∈ demoTable.rows) : OnSensor demoDut r := by
  simp only [demoTable, List.mem_cons, List.not_mem_nil, or_false] at hr
  rcases hr with rfl | rfl | rfl <;> norm_num [OnSensor, demoRow, row_column, demoDut]

def demoFiles : Files ℚ := fun n => if n = "a.h5" ∨ n = "b.h5" then some demoTable else none

def demoStem (s : String) : String := if s = "a.h5" then "a" else if s = "b.h5" then "b" else s

/-- `C90_succeeds_iff` applies: the file is converted. -/
example : ∃ q, convertCoordinates demoStem true 4 demoDut demoFiles "a.h5" none = .ok q :=
  (C90_succeeds_iff demoStem 4 demoDut demoFiles "a.h5" demoTable rfl demo_sorted demo_small (by decide) (by decide) (by decide)
    (by decide) (by decide)).mpr demo_on

/-- The hit in column 4, row 2 is at x = 375 um, y = 25 um. -/
example : centre 4 (250 : ℚ) 4 = 375 ∧ centre 2 (50 : ℚ) 2 = 25 := by norm_num [centre]

/-- A hit in column 5 is refused. -/
example : ¬ ∃ q, convertCoordinates demoStem true 4 demoDut (fun _ => some { demoTable with rows := [demoRow 1 5 1 7] }) "a.h5" none = .ok q := by
  rw [C90_succeeds_iff demoStem 4 demoDut _ "a.h5" { demoTable with rows := [demoRow 1 5 1 7] } rfl (by simp [SortedBy])
    (fun e => lt_of_le_of_lt (List.length_filter_le _ _) (by decide)) (by decide) (by decide) (by decide) (by decide) (by decide)]
  intro h
  have := (h (demoRow 1 5 1 7) (by simp)).2.1
  norm_num [demoRow, demoDut] at this

/-- `C91_there_and_back` applies. -/
example : ∃ t1 t2, convertTable true 4 demoDut demoTable = .ok t1 ∧ convertTable false 5 demoDut t1 = .ok t2 ∧
    t2.names = demoTable.names ∧
    List.Forall₂ (fun r r2 => r2.event = r.event ∧ ∀ n ∈ demoTable.names, r2.value n = r.value n) demoTable.rows t2.rows :=
  C91_there_and_back demoDut (by norm_num [demoDut]) (by norm_num [demoDut]) (by decide) (by decide) 4 5 demoTable demo_sorted
    demo_small (fun e => lt_trans (demo_small e) (by decide)) (by decide) (by decide) (by decide) (by decide) (by decide) (by decide) (by
      intro r hr
      simp only [demoTable, List.mem_cons, List.not_mem_nil, or_false] at hr
      rcases hr with rfl | rfl | rfl
      · exact ⟨1, 1, by norm_num [demoRow], by norm_num [demoRow, row_column], by decide, by decide, by decide, by decide⟩
      · exact ⟨4, 2, by norm_num [demoRow], by norm_num [demoRow, row_column], by decide, by decide, by decide, by decide⟩
      · exact ⟨2, 1, by norm_num [demoRow], by norm_num [demoRow, row_column], by decide, by decide, by decide, by decide⟩)

def demoPos (e : Int) (x y : ℚ) : Row ℚ := { event := e, value := fun n => if n = "x" then x else if n = "y" then y else 0 }

/-- A table with a position in the right half of column 3 and one in the left half of column 1. -/
def demoLocal : Table ℚ := { names := ["x", "y", "z"], rows := [demoPos 1 200 20, demoPos 2 (-400) (-30)] }

theorem demoLocal_ok : convertTable false 2 demoDut demoLocal =
    .ok { names := ["column", "row"], rows := demoLocal.rows.map (newRow false demoDut) } := by
  refine convertTable_exists false 2 demoDut demoLocal (by simp [SortedBy, demoLocal, demoPos]) ?_ (by decide) (fun _ => ?_) ?_
  · intro e
    simp only [BTA.Spec.multiplicity, demoLocal, demoPos]
    by_cases h1 : (1 : Int) = e
    · subst h1; decide
    · by_cases h2 : (2 : Int) = e
      · subst h2; decide
      · simp [h1, h2]
  · exact ⟨by decide, by decide⟩
  · intro r hr
    simp only [demoLocal, List.mem_cons, List.not_mem_nil, or_false] at hr
    rcases hr with rfl | rfl <;> norm_num [RowOk, PositionOnSensor, demoPos, demoDut, abs_le, y_x]

/-- `C91_pixel_partial` applies: x = 200 um is given column 3, where it is. -/
example : (newRow false demoDut (demoPos 1 200 20)).value "column" = 3 := by
  have := (C91_pixel_partial demoDut (by norm_num [demoDut]) (by norm_num [demoDut]) (by decide) (by decide) 2 (by decide) demoLocal _
    (by simp [SortedBy, demoLocal, demoPos]) demoLocal_ok 0 (demoPos 1 200 20) (newRow false demoDut (demoPos 1 200 20)) rfl rfl).1 3
    (by decide) (by norm_num [InPixel, demoDut, demoPos]) (by norm_num [centre, demoDut, demoPos])
  simpa using this

/-- `C91_lower_half` applies: x = -400 um lies in column 1 but is given column 0. -/
example : (newRow false demoDut (demoPos 2 (-400) (-30))).value "column" = 0 ∧ InPixel 4 (250 : ℚ) 1 (-400) := by
  have := (C91_lower_half demoDut (by norm_num [demoDut]) (by norm_num [demoDut]) (by decide) (by decide) 2 (by decide) demoLocal _
    (by simp [SortedBy, demoLocal, demoPos]) demoLocal_ok 1 (demoPos 2 (-400) (-30)) (newRow false demoDut (demoPos 2 (-400) (-30)))
    rfl rfl).1 1 (by decide) (by decide) (by norm_num [InPixel, demoDut, demoPos]) (by norm_num [centre, demoDut, demoPos])
  exact ⟨by simpa using this, by norm_num [InPixel]⟩

theorem demoFile_ok (b : Pixels ℚ) (hb : ∀ r ∈ demoTable.rows, OnSensor b r) :
    convertTable true 4 b demoTable = .ok { names := ["x", "y", "charge"], rows := demoTable.rows.map (newRow true b) } :=
  convertTable_exists true 4 b demoTable demo_sorted demo_small (by decide) (fun _ => ⟨by decide, by decide⟩) hb

/-- A second sensor, with pixels of 100 um by 100 um. -/
def demoDut2 : Pixels ℚ := { columnSize := 100, rowSize := 100, nColumns := 4, nRows := 2 }

theorem demo_on2 (r : Row ℚ) (hr : r ∈ demoTable.rows) : OnSensor demoDut2 r := by
  simp only [demoTable, List.mem_cons, List.not_mem_nil, or_false] at hr
  rcases hr with rfl | rfl | rfl <;> norm_num [OnSensor, demoRow, row_column, demoDut2]

/-- `C92_succeeds` applies to the selection [0, 1]. -/
theorem demo_both : ∃ q, convert demoStem true 4 [demoDut, demoDut2] demoFiles ["a.h5", "b.h5"] none (some [0, 1]) = .ok q := by
  refine C92_succeeds demoStem true 4 _ demoFiles _ _ (by decide) rfl (by decide) (by decide) (by decide) ?_
  intro k s i d hk hi hd
  match k with
  | 0 =>
    simp only [List.getElem?_cons_zero, Option.some.injEq] at hk hi
    subst hk; subst hi
    simp only [Int.toNat_zero, List.getElem?_cons_zero, Option.some.injEq] at hd
    subst hd
    exact ⟨demoTable, _, rfl, demoFile_ok _ demo_on⟩
  | 1 =>
    simp only [List.getElem?_cons_succ, List.getElem?_cons_zero, Option.some.injEq] at hk hi
    subst hk; subst hi
    simp only [Int.toNat_one, List.getElem?_cons_succ, List.getElem?_cons_zero, Option.some.injEq] at hd
    subst hd
    exact ⟨demoTable, _, rfl, demoFile_ok _ demo_on2⟩
  | k + 2 => simp at hk

/-- The selection [1, 0] with the files of DUT 1 and DUT 0, in this order: the first file, of DUT 1, is converted with the pixels of
DUT 0: the hit in column 4 of DUT 1, at 150 um, is written to 375 um. -/
theorem C92_wrong_dut : ∃ fs' names t', convert demoStem true 4 [demoDut, demoDut2] demoFiles ["a.h5", "b.h5"] none (some [1, 0]) =
      .ok (fs', names) ∧ fs' "a_local_coordinates.h5" = some t' ∧ (t'.rows.map fun r => r.value "x") = [-375, 375, -125] ∧
      (demoTable.rows.map fun r => centre demoDut2.nColumns demoDut2.columnSize (r.value "column")) = [-150, 150, -50] := by
  obtain ⟨⟨fs', names⟩, h⟩ := demo_both
  obtain ⟨-, -, h3⟩ := C92_pairs_partial demoStem true 4 _ demoFiles fs' _ names (some [0, 1]) [0, 1] rfl (by decide) (by decide)
    (by decide) (by decide) h
  obtain ⟨d, t, t', h4, h5, h6, h7⟩ := h3 0 0 "a.h5" rfl rfl
  simp only [Int.toNat_zero, List.getElem?_cons_zero, Option.some.injEq] at h4
  subst h4
  have h5' : demoFiles "a.h5" = some demoTable := rfl
  rw [h5'] at h5
  injection h5 with h5
  subst h5
  rw [demoFile_ok _ demo_on] at h6
  injection h6 with h6
  subst h6
  refine ⟨fs', names, _, ?_, h7, ?_, ?_⟩
  · rw [C92_order_ignored demoStem true 4 _ demoFiles _ none [1, 0] [0, 1] rfl (by intro s; simp [or_comm])]
    exact h
  · norm_num [demoTable, newRow, localRow, setLocal, demoRow, demoDut]
  · norm_num [demoTable, centre, demoRow, demoDut2]

/-- `C92_dropped` applies: with two DUTs the selection [0, 2] is accepted and the second file is not converted. -/
example : ∃ fs' , convert demoStem true 4 [demoDut, demoDut2] demoFiles ["a.h5", "b.h5"] none (some [0, 2]) =
    .ok (fs', ["a_local_coordinates.h5"]) := by
  refine ⟨write demoFiles "a_local_coordinates.h5" { names := ["x", "y", "charge"], rows := demoTable.rows.map (newRow true demoDut) }, ?_⟩
  have h5 : demoFiles "a.h5" = some demoTable := rfl
  have hc : convert demoStem true 4 [demoDut, demoDut2] demoFiles ["a.h5", "b.h5"] none (some [0, 2]) =
      convertLoop demoStem true 4 [demoDut] demoFiles ["a.h5", "b.h5"] [none, none] := rfl
  rw [hc, convertLoop, convertCoordinates]
  simp only [convertTo, h5, demoFile_ok _ demo_on, convertLoop]
  rfl

/-- `C92_output_files`: with output files given and a DUT selected there is an error. -/
example (q : Files ℚ × List String) :
    convert demoStem true 4 [demoDut, demoDut2] demoFiles ["a.h5", "b.h5"] (some ["c.h5", "d.h5"]) none ≠ .ok q := by
  intro h
  have := (C92_output_files demoStem true 4 _ demoFiles q.1 _ _ q.2 none h).2.2 0 (by decide)
  simp at this

/-- C91: the new table has the columns of the old one, with column and row in place of x and y and without z; the events, the number and order of
the hits and the values of all other columns are the same. -/
theorem C91_columns (d : Pixels K) (cs : Nat) (hcs : 0 < cs) (t t' : Table K) (hs : SortedBy Row.event t.rows)
    (h : convertTable false cs d t = .ok t') :
    t'.names = (t.names.filter (· ≠ "z")).map (fun n => if n = "x" then "column" else if n = "y" then "row" else n) ∧ "z" ∉ t'.names ∧
    List.Forall₂ (fun r r' => r'.event = r.event ∧ ∀ n, n ≠ "column" → n ≠ "row" → r'.value n = r.value n) t.rows t'.rows := by
  obtain ⟨-, -, -, g1, g2⟩ := convertTable_ok false cs hcs d t t' hs h
  have e : ∀ l : List String, outNames false l =
      (l.filter (· ≠ "z")).map fun n => if n = "x" then "column" else if n = "y" then "row" else n := by
    intro l
    simp only [outNames, Bool.false_eq_true, if_false]
    induction l with
    | nil => rfl
    | cons a l ih =>
      rw [List.filterMap_cons, ih]
      by_cases hz : a = "z"
      · subst hz
        simp
      · by_cases hx : a = "x"
        · subst hx; simp
        · by_cases hy : a = "y"
          · subst hy; simp
          · simp [hx, hy, hz]
  refine ⟨g1.trans (e _), ?_, ?_⟩
  · rw [g1, e]
    simp only [List.mem_map, List.mem_filter, decide_eq_true_eq, not_exists, not_and]
    rintro n ⟨-, hz⟩
    split_ifs
    · decide
    · decide
    · exact hz
  · rw [g2, List.forall₂_map_right_iff]
    refine List.forall₂_same.mpr fun r _ => ⟨rfl, fun n h1 h2 => ?_⟩
    simp [newRow, indexRow, setIndex, h1, h2]

/-- C92: the number of input files and of output files has to be the number of selected DUTs. -/
theorem C92_numbers (stem : String → String) (b : Bool) (cs : Nat) (telescope : List (Pixels K)) (fs : Files K)
    (inputs : List String) (outs : Option (List String)) (sel : List Int) (q : Files K × List String)
    (h : convert stem b cs telescope fs inputs outs (some sel) = .ok q) :
    inputs.length = sel.length ∧ ∀ os, outs = some os → os.length = sel.length := by
  unfold convert at h
  dsimp only [selection] at h
  split at h
  · simp at h
  · split at h
    · simp at h
    · rename_i h1
      split at h
      · simp at h
      · rename_i h2
        refine ⟨(not_not.mp h1).symm, ?_⟩
        rintro os rfl
        simp only [outputsMatch, beq_eq_false_iff_ne, ne_eq, not_not] at h2
        exact h2.symm

/-- `C91_columns` applies: z is removed. -/
example : ∃ t', convertTable false 2 demoDut demoLocal = .ok t' ∧ "z" ∉ t'.names :=
  ⟨_, demoLocal_ok, (C91_columns demoDut 2 (by decide) demoLocal _ (by simp [SortedBy, demoLocal, demoPos]) demoLocal_ok).2.1⟩

/-- `C92_numbers`: with two DUTs selected, one output file is an error. -/
example (q : Files ℚ × List String) :
    convert demoStem true 4 [demoDut, demoDut2] demoFiles ["a.h5", "b.h5"] (some ["c.h5"]) (some [0, 1]) ≠ .ok q := by
  intro h
  have := (C92_numbers _ _ _ _ _ _ _ _ _ h).2 _ rfl
  simp at this

end BTA.Convert
