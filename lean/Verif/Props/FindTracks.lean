import Verif.Lemmas.FindTracks
import Mathlib.Data.List.Perm.Basic
/-
C20 (find_tracks re-assigns hits inside an event only), C21 (find_tracks ends), C22 (all columns of a hit move together),
C23 (hit flag).
-/
namespace BTA.Find.Props

open BTA.Find

/-! ### Specification -/

/-- The values `h r` of the rows `r` of the event `e`, in row order. -/
def rowsOfEvent (ev : List Int) (e : Int) (h : Nat → E) : List E :=
  ((List.range ev.length).filter fun r => decide (ev[r]? = some e)).map h

variable {F : Type} (S : Setup F) (x y z : Nat → Nat → F)

/-! ### C21 -/

/-- C21: the track finding ends for all inputs. `z_sorted_dut_indices` is the result of `np.argsort`, it contains no DUT
twice. -/
theorem C21_terminates (hn : S.zs.Nodup) : ∃ t, runFindTracks S x y z = some t := by
  obtain ⟨t, σ, h, -⟩ := findLoop_spec S hn (-1) 0 ⟨x, y, z, fun r _ => r⟩
  exact ⟨t, h⟩

/-! ### C20 -/

theorem run_permuted (hn : S.zs.Nodup) (t : Tracks F) (h : runFindTracks S x y z = some t) :
    ∃ σ : Nat → Equiv.Perm Nat, Permuted S.ev ⟨x, y, z, fun r _ => r⟩ t σ ∧ ∀ d, d ∉ S.zs.tail → σ d = 1 := by
  obtain ⟨t', σ, h1, h2, h3⟩ := findLoop_spec S hn (-1) 0 ⟨x, y, z, fun r _ => r⟩
  rw [runFindTracks, h1, Option.some.injEq] at h
  subst h
  exact ⟨σ, h2, h3⟩

/-- A permutation that keeps the event numbers permutes the rows of each event. -/
theorem perm_rows (ev : List Int) (e : Int) (σ : Equiv.Perm Nat) (hσ : ∀ r : Nat, ev[σ r]? = ev[r]?) (h : Nat → E) :
    (rowsOfEvent ev e fun r => h (σ r)).Perm (rowsOfEvent ev e h) := by
  unfold rowsOfEvent
  have : (((List.range ev.length).filter fun r => decide (ev[r]? = some e)).map fun r => h (σ r))
      = ((((List.range ev.length).filter fun r => decide (ev[r]? = some e)).map σ).map h) := by
    rw [List.map_map]; rfl
  rw [this]
  refine List.Perm.map h ?_
  have nd : ((List.range ev.length).filter fun r => decide (ev[r]? = some e)).Nodup := List.nodup_range.filter _
  rw [List.perm_ext_iff_of_nodup (nd.map σ.injective) nd]
  intro r
  simp only [List.mem_map, List.mem_filter, List.mem_range, decide_eq_true_eq]
  constructor
  · rintro ⟨a, ⟨ha, hae⟩, rfl⟩
    have := hσ a
    rw [hae] at this
    exact ⟨(List.getElem?_eq_some_iff.mp this).1, this⟩
  · rintro ⟨ha, hae⟩
    have := hσ (σ.symm r)
    rw [Equiv.apply_symm_apply, hae] at this
    exact ⟨σ.symm r, ⟨(List.getElem?_eq_some_iff.mp this.symm).1, this.symm⟩, by simp⟩

/-- C20: for every DUT and every event the hits of the track candidates are a permutation of the hits of the input (the
event numbers of the rows are not touched). -/
theorem C20_hits_permuted (hn : S.zs.Nodup) (t : Tracks F) (h : runFindTracks S x y z = some t) (e : Int) (d : Nat) :
    (rowsOfEvent S.ev e fun r => (t.x r d, t.y r d, t.z r d)).Perm (rowsOfEvent S.ev e fun r => (x r d, y r d, z r d)) := by
  obtain ⟨σ, hp, -⟩ := run_permuted S x y z hn t h
  have := perm_rows S.ev e (σ d) (fun r => hp.event r d) (fun r => (x r d, y r d, z r d))
  simpa only [hp.x, hp.y, hp.z] using this

/-- C20: the array `indices`, which is used to copy all other columns, gives for every row and DUT the input row of the
hit. This row belongs to the same event, and no row is used twice. -/
theorem C20_indices (hn : S.zs.Nodup) (t : Tracks F) (h : runFindTracks S x y z = some t) (d : Nat) :
    (∀ r < S.ev.length, t.idx r d < S.ev.length ∧ S.ev[t.idx r d]? = S.ev[r]? ∧
      t.x r d = x (t.idx r d) d ∧ t.y r d = y (t.idx r d) d ∧ t.z r d = z (t.idx r d) d) ∧
    ∀ e, (rowsOfEvent S.ev e fun r => t.idx r d).Perm (rowsOfEvent S.ev e id) := by
  obtain ⟨σ, hp, -⟩ := run_permuted S x y z hn t h
  have hi : ∀ r, t.idx r d = σ d r := fun r => hp.idx r d
  refine ⟨fun r hr => ?_, fun e => ?_⟩
  · rw [hi]
    have he := hp.event r d
    refine ⟨?_, he, hp.x r d, hp.y r d, hp.z r d⟩
    rw [List.getElem?_eq_getElem hr] at he
    exact (List.getElem?_eq_some_iff.mp he).1
  · simp only [hi]
    exact perm_rows S.ev e (σ d) (fun r => hp.event r d) id

/-- C20: the hits of the first DUT along the beam stay in place. -/
theorem C20_first_dut_fixed (hn : S.zs.Nodup) (t : Tracks F) (h : runFindTracks S x y z = some t) (d : Nat)
    (hd : S.zs.head? = some d) (r : Nat) :
    t.idx r d = r ∧ t.x r d = x r d ∧ t.y r d = y r d ∧ t.z r d = z r d := by
  obtain ⟨σ, hp, h1⟩ := run_permuted S x y z hn t h
  have hd' : d ∉ S.zs.tail := by
    cases hz : S.zs with
    | nil => simp
    | cons a l =>
      rw [hz] at hn hd
      simp only [List.head?_cons, Option.some.injEq] at hd
      subst hd
      exact (List.nodup_cons.mp hn).1
  have hi := hp.idx r d
  have hx := hp.x r d
  have hy := hp.y r d
  have hz := hp.z r d
  rw [h1 d hd'] at hi hx hy hz
  exact ⟨hi, hx, hy, hz⟩

/-- Two rows of one event with two DUTs (positions as integers, `none` for no hit); the hits of the second DUT are in the
wrong order: the track finding swaps them. -/
def exFloats : Floats (Option Int) where
  isnan a := a.isNone
  add a b := do return (← a) + (← b)
  sub a b := do return (← a) - (← b)
  mul a b := do return (← a) * (← b)
  div a b := do return (← a) / (← b)
  neg a := do return -(← a)
  sqrt a := a
  lt a b := match a, b with | some a, some b => decide (a < b) | _, _ => false
  nonneg a := match a with | some a => decide (0 ≤ a) | none => false
  minusOne := some (-1)

def exSetup : Setup (Option Int) := ⟨exFloats, [7, 7], [0, 1], [0, 1], fun _ => (some 0, some 0, some 0),
  fun _ => (some 0, some 0, some 1)⟩

example : exSetup.zs.Nodup := by decide

theorem ex_reference (t : Tracks (Option Int)) (r : Nat) (h : (t.x r 0).isNone = false) :
    reference exSetup t r 1 0 = some (t.x r 0, t.y r 0) := by
  have hzs : exSetup.zs = [0, 1] := rfl
  have hex : exSetup.extrap = [0, 1] := rfl
  have hnan : ∀ a, exSetup.fl.isnan a = a.isNone := fun _ => rfl
  have hr : refDuts exSetup t.x r 1 [] = some [0] := by
    rw [refDuts]
    have hp : sortedPos exSetup.zs 1 = 1 := by decide
    have hl : lastDut exSetup t.x r (slicePrefix exSetup.zs 1) = some 0 := by
      simp [hzs, slicePrefix, lastDut, hnan, h]
    simp only [hp, hl, hex]
    simp
    rw [refDuts]
    have hp : sortedPos exSetup.zs 0 = 0 := by decide
    simp [hp]
  simp [reference, hr]

theorem ex_swap (t : Tracks (Option Int)) (h00 : t.x 0 0 = some 0) (h01 : t.x 0 1 = some 10) (h10 : t.x 1 0 = some 10)
    (h11 : t.x 1 1 = some 0) (hy : ∀ r d, t.y r d = some 0) :
    findTracks exSetup 0 1 0 t = some (swapHits t 0 1 1) := by
  have hnan : ∀ a, exSetup.fl.isnan a = a.isNone := fun _ => rfl
  have hzs : exSetup.zs = [0, 1] := rfl
  have hev : exSetup.ev = [7, 7] := rfl
  have e0 := ex_reference t 0 (by rw [h00]; rfl)
  have e1 := ex_reference t 1 (by rw [h10]; rfl)
  rw [h00, hy] at e0
  rw [h10, hy] at e1
  have f0 : firstDut exSetup t.x 0 [0, 1] = some 0 := by simp [firstDut, hnan, h00]
  have f1 : firstDut exSetup t.x 1 [0, 1] = some 0 := by simp [firstDut, hnan, h10]
  have d0 : distance exSetup (some 10) (some 0) (some 0, some 0) = some 100 := by decide
  have d1 : distance exSetup (some 0) (some 0) (some 0, some 0) = some 0 := by decide
  have d2 : distance exSetup (some 0) (some 0) (some 10, some 0) = some 100 := by decide
  have l1 : exSetup.fl.lt (some 100) (some 0) = false := by decide
  have hl : hitLoop exSetup t 0 0 1 (some 0, some 0) 0 none (some 100) = some (some 1) := by
    rw [hitLoop]
    simp [hev]
    rw [hitLoop]
    simp [hev, hnan, hzs, h11, f1, d1, d2, l1, e1, hy]
    rw [hitLoop]
    simp [hev]
  have hp : ¬ sortedPos [0, 1] 0 ≥ sortedPos [0, 1] 1 := by decide
  rw [findTracks, hzs, f0]
  simp only [hp, if_false, e0, Option.bind_eq_bind, Option.bind_some, h01, hy, hnan, Option.isNone_some,
    Bool.false_eq_true, d0, hl]
  simp

theorem ex_keep (t : Tracks (Option Int)) (h01 : t.x 0 1 = some 0) (h10 : t.x 1 0 = some 10)
    (h11 : t.x 1 1 = some 10) (hy : ∀ r d, t.y r d = some 0) : findTracks exSetup 0 1 1 t = some t := by
  have hnan : ∀ a, exSetup.fl.isnan a = a.isNone := fun _ => rfl
  have hzs : exSetup.zs = [0, 1] := rfl
  have hev : exSetup.ev = [7, 7] := rfl
  have e1 := ex_reference t 1 (by rw [h10]; rfl)
  rw [h10, hy] at e1
  have f1 : firstDut exSetup t.x 1 [0, 1] = some 0 := by simp [firstDut, hnan, h10]
  have d0 : distance exSetup (some 10) (some 0) (some 10, some 0) = some 0 := by decide
  have d1 : distance exSetup (some 0) (some 0) (some 10, some 0) = some 100 := by decide
  have l1 : exSetup.fl.lt (some 0) (some 100) = true := by decide
  have l2 : exSetup.fl.nonneg (some 0) = true := by decide
  have hl : hitLoop exSetup t 0 1 1 (some 10, some 0) 0 none (some 0) = some none := by
    rw [hitLoop]
    simp [hev, hnan, h01, d1, l1, l2, hy]
    rw [hitLoop]
    simp [hev]
    rw [hitLoop]
    simp [hev]
  have hp : ¬ sortedPos [0, 1] 0 ≥ sortedPos [0, 1] 1 := by decide
  rw [findTracks, hzs, f1]
  simp only [hp, if_false, e1, Option.bind_eq_bind, Option.bind_some, h11, hy, hnan, Option.isNone_some,
    Bool.false_eq_true, d0, hl]
  simp

example : ∃ t, runFindTracks exSetup (fun r d => if r = d then some 0 else some 10) (fun _ _ => some 0) (fun _ _ => some 0)
    = some t ∧ t.idx 0 1 = 1 ∧ t.idx 1 1 = 0 := by
  have hzs : exSetup.zs = [0, 1] := rfl
  have hev : exSetup.ev = [7, 7] := rfl
  obtain ⟨t0, ht0⟩ : ∃ t0 : Tracks (Option Int), t0 = ⟨fun r d => if r = d then some 0 else some 10, fun _ _ => some 0,
    fun _ _ => some 0, fun r _ => r⟩ := ⟨_, rfl⟩
  have h1 := ex_swap t0 (by rw [ht0]; rfl) (by rw [ht0]; rfl) (by rw [ht0]; rfl) (by rw [ht0]; rfl)
    (by rw [ht0]; intros; rfl)
  have h2 := ex_keep (swapHits t0 0 1 1) (by rw [ht0]; rfl) (by rw [ht0]; rfl) (by rw [ht0]; rfl) (by
    rw [ht0]; intro r d; simp only [swapHits, set2]; split <;> first | rfl | (split <;> rfl))
  refine ⟨swapHits t0 0 1 1, ?_, by rw [ht0]; rfl, by rw [ht0]; rfl⟩
  unfold runFindTracks
  rw [← ht0, findLoop]
  simp only [hev, hzs]
  simp only [List.length_cons, List.length_nil, List.tail_cons, List.getElem_cons_zero]
  have h3 : dutLoop exSetup 0 7 [1] t0 = some (swapHits t0 0 1 1) := by
    unfold dutLoop
    rw [rowLoop]
    simp only [hev]
    simp [h1]
    rw [rowLoop]
    simp only [hev]
    simp [h2]
    rw [rowLoop]
    simp [hev, dutLoop]
  simp [h3]
  rw [findLoop]
  simp [hev]
  rw [findLoop]
  simp [hev]

/-! ### C22 -/

/-- Column of DUT `i`: `base_dut_i` with the decimal number `i`. -/
def columnName (base : List Char) (i : Nat) : List Char := base ++ ['_', 'd', 'u', 't', '_'] ++ Nat.toDigits 10 i

/-- The part before `_dut_i` contains no `dut_` (true for all columns of the merged file, e.g. `x`, `n_hits`). -/
def CleanBase (base : List Char) : Prop := ¬ ['d', 'u', 't', '_'] <:+: base ++ ['_', 'd', 'u', 't']

example : CleanBase ['n', '_', 'h', 'i', 't', 's'] := by unfold CleanBase; decide

theorem copyColumn_comp (n : Nat) (idx : Nat → Nat → Nat) (name : List Char) (col : Nat → E) :
    copyColumn n idx name col = fun r => col (copyColumn n idx name id r) := by
  unfold copyColumn
  induction n with
  | zero => rfl
  | succ n ih =>
    rw [List.range_succ, List.foldl_append, List.foldl_append, ih]
    simp only [List.foldl_cons, List.foldl_nil]
    split <;> rfl

/-- A name matches DUT `d` exactly if the decimal digits of `d` are a prefix of the digits of its own DUT. -/
theorem nameOfDut_iff (base : List Char) (hb : CleanBase base) (i d : Nat) :
    nameOfDut (columnName base i) d = true ↔ Nat.toDigits 10 d <+: Nat.toDigits 10 i := by
  have hdig : ∀ c ∈ Nat.toDigits 10 i, c.isDigit := fun c hc => Nat.isDigit_of_mem_toDigits (by decide) (by decide) hc
  unfold nameOfDut columnName
  rw [decide_eq_true_eq]
  generalize Nat.toDigits 10 d = D
  generalize Nat.toDigits 10 i = I at *
  constructor
  · rintro ⟨s, t, hst⟩
    rcases Nat.lt_trichotomy s.length (base.length + 1) with hl | hl | hl
    · exfalso
      apply hb
      -- the first `base.length + 4` characters
      have := congrArg (List.take (base.length + 4)) hst
      have e1 : List.take (base.length + 4) (base ++ ['_', 'd', 'u', 't', '_'] ++ I) = base ++ ['_', 'd', 'u', 't'] := by
        rw [List.append_assoc, List.take_append, List.take_of_length_le (by omega)]
        simp
      rw [e1] at this
      rw [← this]
      refine ⟨s, List.take (base.length + 4 - (s.length + 4)) (D ++ t), ?_⟩
      conv_rhs => rw [show s ++ (['d', 'u', 't', '_'] ++ D) ++ t = (s ++ ['d', 'u', 't', '_']) ++ (D ++ t) by simp [List.append_assoc],
        List.take_append, List.take_of_length_le (by simp; omega)]
      simp
    · have e : base ++ ['_', 'd', 'u', 't', '_'] ++ I = (base ++ ['_']) ++ (['d', 'u', 't', '_'] ++ I) := by simp
      rw [e, List.append_assoc] at hst
      have := List.append_inj_right hst (by simp [hl])
      rw [List.append_assoc] at this
      exact ⟨t, List.append_cancel_left this⟩
    · exfalso
      -- the character 'd' is found behind the position of the real one
      have h1 : (s ++ (['d', 'u', 't', '_'] ++ D) ++ t)[s.length]? = some 'd' := by simp
      rw [hst] at h1
      obtain ⟨k, hk⟩ : ∃ k, s.length = base.length + 2 + k := ⟨s.length - (base.length + 2), by omega⟩
      rw [show base ++ ['_', 'd', 'u', 't', '_'] ++ I = (base ++ ['_', 'd']) ++ (['u', 't', '_'] ++ I) by simp, hk,
        List.getElem?_append_right (by simp)] at h1
      have h2 : 'd' ∈ (['u', 't', '_'] ++ I) := List.mem_of_getElem? h1
      simp at h2
      have := hdig 'd' h2
      revert this
      decide
  · rintro ⟨t, rfl⟩
    exact ⟨base ++ ['_'], t, by simp [List.append_assoc]⟩

/-- C22: all columns of a DUT in a row of the output stem from one and the same input row, for any number of DUTs and any
set of columns. -/
theorem C22_columns_together (n : Nat) (idx : Nat → Nat → Nat) (i : Nat) : ∃ source : Nat → Nat,
    ∀ (base : List Char), CleanBase base → ∀ {E : Type} (col : Nat → E),
      copyColumn n idx (columnName base i) col = fun r => col (source r) := by
  refine ⟨copyColumn n idx (columnName ['x'] i) id, fun base hb E col => ?_⟩
  rw [copyColumn_comp]
  have hx : CleanBase ['x'] := by unfold CleanBase; decide
  have e : ∀ d, nameOfDut (columnName base i) d = nameOfDut (columnName ['x'] i) d := by
    intro d
    rw [Bool.eq_iff_iff, nameOfDut_iff base hb, nameOfDut_iff _ hx]
  have : copyColumn n idx (columnName base i) (id : Nat → Nat) = copyColumn n idx (columnName ['x'] i) id := by
    unfold copyColumn
    simp only [e]
  rw [this]

theorem copyColumn_only (n : Nat) (idx : Nat → Nat → Nat) (name : List Char) (i : Nat)
    (h : ∀ d < n, nameOfDut name d = true ↔ d = i) (col : Nat → E) :
    copyColumn n idx name col = if i < n then fun r => col (idx r i) else col := by
  induction n with
  | zero => rfl
  | succ n ih =>
    have ih' := ih fun d hd => h d (by omega)
    unfold copyColumn at *
    rw [List.range_succ, List.foldl_append, ih']
    simp only [List.foldl_cons, List.foldl_nil]
    by_cases hn : n = i
    · subst hn
      rw [if_pos ((h n (by omega)).mpr rfl)]
      simp
    · rw [if_neg (fun hc => hn ((h n (by omega)).mp hc))]
      by_cases hi : i < n
      · rw [if_pos hi, if_pos (by omega)]
      · rw [if_neg hi, if_neg (by omega)]

/-- C22 (partial): with at most ten DUTs the input row is the one assigned by the track finding. Missing: more DUTs, where
it is false, see `C22_eleven_duts`. -/
theorem C22_assigned_row_partial (n : Nat) (hn : n ≤ 10) (idx : Nat → Nat → Nat) (i : Nat) (hi : i < n) (base : List Char)
    (hb : CleanBase base) (col : Nat → E) (r : Nat) :
    copyColumn n idx (columnName base i) col r = col (idx r i) := by
  rw [copyColumn_only n idx _ i ?_ col, if_pos hi]
  intro d hd
  rw [nameOfDut_iff base hb]
  constructor
  · intro hp
    rw [Nat.toDigits_of_lt_base (by omega), Nat.toDigits_of_lt_base (by omega)] at hp
    have h1 : d.digitChar = i.digitChar := by simpa using hp
    have h2 : Nat.ofDigitChars 10 [d.digitChar] 0 = Nat.ofDigitChars 10 [i.digitChar] 0 := by rw [h1]
    rw [← Nat.toDigits_of_lt_base (b := 10) (by omega), ← Nat.toDigits_of_lt_base (b := 10) (by omega),
      Nat.ofDigitChars_ten_toDigits, Nat.ofDigitChars_ten_toDigits] at h2
    exact h2
  · rintro rfl
    exact List.prefix_rfl

/-- Two rows; the track finding exchanges the hits of DUT 1 and leaves all others. -/
def exIdx (r d : Nat) : Nat := if d = 1 then (if r = 0 then 1 else 0) else r

/-- C22 is false with eleven DUTs: the columns of DUT 10 are also permuted with the assignment of DUT 1 since `dut_1` is
contained in `x_dut_10`. -/
theorem C22_eleven_duts (col : Nat → E) : copyColumn 11 exIdx (columnName ['x'] 10) col 0 = col 1 ∧ exIdx 0 10 = 0 := by
  refine ⟨?_, rfl⟩
  rw [copyColumn_comp]
  have : copyColumn 11 exIdx (columnName ['x'] 10) id 0 = 1 := by decide +kernel
  exact congrArg col this

/-! ### C23 -/

/-- C23: bit `i` of the hit flag is set exactly if the row has a hit of DUT `i`. -/
theorem C23_hit_flag (n : Nat) (hn : n ≤ 32) (finite : Nat → Bool) (i : Nat) (hi : i < 32) :
    (hitFlag n finite).getLsbD i = (decide (i < n) && finite i) := by
  induction n generalizing i with
  | zero => simp [hitFlag]
  | succ n ih =>
    have ih' := fun i hi => ih (by omega) i hi
    unfold hitFlag at *
    rw [List.range_succ, List.foldl_append]
    generalize (List.range n).foldl (fun f d => f + ((if finite d then 1#32 else 0#32) <<< d)) 0#32 = f at *
    simp only [List.foldl_cons, List.foldl_nil]
    have bit : ∀ j < 32, ((if finite n then 1#32 else 0#32) <<< n).getLsbD j = (decide (j = n) && finite n) := by
      intro j hj
      cases finite n
      · simp
      · simp only [if_true, BitVec.getLsbD_shiftLeft, hj, decide_true, Bool.true_and, BitVec.getLsbD_one, Bool.and_true]
        by_cases h1 : j < n
        · simp [h1]; omega
        · by_cases h2 : j = n
          · simp [h2]
          · simp [h2]; omega
    rw [BitVec.add_eq_or_of_and_eq_zero]
    · rw [BitVec.getLsbD_or, ih' i hi, bit i hi]
      by_cases h1 : i < n
      · simp [h1, show i < n + 1 by omega, show i ≠ n by omega]
      · by_cases h2 : i = n
        · subst h2; simp
        · simp [h1, h2, show ¬ i < n + 1 by omega]
    · apply BitVec.eq_of_getLsbD_eq
      intro j hj
      rw [BitVec.getLsbD_and, ih' j hj, bit j hj]
      by_cases h2 : j = n
      · subst h2; simp
      · simp [h2]

/-- C23: two rows have the same flag exactly if they have hits in the same DUTs. -/
theorem C23_hit_flag_identifies (n : Nat) (hn : n ≤ 32) (f g : Nat → Bool) :
    hitFlag n f = hitFlag n g ↔ ∀ i < n, f i = g i := by
  constructor
  · intro h i hi
    have : (hitFlag n f).getLsbD i = (hitFlag n g).getLsbD i := by rw [h]
    rw [C23_hit_flag n hn f i (by omega), C23_hit_flag n hn g i (by omega)] at this
    simpa [hi] using this
  · intro h
    apply BitVec.eq_of_getLsbD_eq
    intro i hi
    rw [C23_hit_flag n hn f i hi, C23_hit_flag n hn g i hi]
    by_cases hin : i < n
    · simp [hin, h i hin]
    · simp [hin]

example : hitFlag 4 (fun d => d != 2) = 11#32 := by decide

end BTA.Find.Props
