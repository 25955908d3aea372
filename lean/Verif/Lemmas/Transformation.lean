import Verif.Spec.Transformation
import Verif.Props.Geometry
import Mathlib.Tactic.Ring
import Mathlib.Tactic.Linarith
import Mathlib.Tactic.Positivity
import Mathlib.Tactic.NormNum
import Mathlib.Tactic.FieldSimp

/-! Lemmas for `calculate_transformation`. -/

namespace BTA.Transformation
open BTA.Geo BTA.Dut BTA.Spec BTA.Transformation.Spec

/-! ### Chunks -/

theorem splitPoint_step (n m i : Nat) (hm : 0 < m) :
    splitPoint n m i + n / m ≤ splitPoint n m (i + 1) ∧ splitPoint n m (i + 1) ≤ splitPoint n m i + n / m + 1 := by
  unfold splitPoint
  rw [Nat.add_mul, Nat.one_mul, Nat.add_div hm]
  split <;> omega

theorem splitPoint_le (n m cs i : Nat) (hm : 0 < m) (h : n ≤ m * cs) : splitPoint n m (i + 1) ≤ splitPoint n m i + cs := by
  unfold splitPoint
  rw [Nat.add_mul, Nat.one_mul]
  calc (i * n + n) / m ≤ (i * n + m * cs) / m := Nat.div_le_div_right (by omega)
    _ = i * n / m + cs := Nat.add_mul_div_left _ _ hm

theorem smallEnough_of (n cs m : Nat) (hm : 0 < m) (h : n ≤ m * cs) : smallEnough n cs m = true := by
  unfold smallEnough
  rw [List.all_eq_true]
  intro i _
  have := splitPoint_le n m cs i hm h
  rw [decide_eq_true_eq]; omega

theorem smallEnough_iff (n cs m : Nat) :
    smallEnough n cs m = true ↔ ∀ i < m, splitPoint n m (i + 1) - splitPoint n m i ≤ cs := by
  unfold smallEnough
  simp [List.all_eq_true]

theorem findSplit_some {n cs fuel m0 m : Nat} (h : findSplit n cs fuel m0 = some m) :
    m0 ≤ m ∧ smallEnough n cs m = true ∧ ∀ k, m0 ≤ k → k < m → smallEnough n cs k = false := by
  induction fuel generalizing m0 with
  | zero => simp [findSplit] at h
  | succ fuel ih =>
    rw [findSplit] at h
    split at h
    · next hs =>
      simp only [Option.some.injEq] at h
      subst h
      exact ⟨le_refl _, hs, fun k h1 h2 => by omega⟩
    · next hs =>
      obtain ⟨h1, h2, h3⟩ := ih h
      refine ⟨by omega, h2, fun k hk hk' => ?_⟩
      rcases Nat.eq_or_lt_of_le hk with rfl | hk
      · simpa using hs
      · exact h3 k hk hk'

theorem firstSplit_pos (n cs : Nat) : 0 < firstSplit n cs := by unfold firstSplit; omega

/-- The number of chunks. -/
theorem findSplit_fuel (n cs fuel : Nat) (hcs : 0 < cs) (hf : 3 ≤ fuel) :
    ∃ m, (∀ fuel, 3 ≤ fuel → findSplit n cs fuel (firstSplit n cs) = some m) ∧ 0 < m ∧ (1 ≤ n → m ≤ n) ∧ smallEnough n cs m = true := by
  have hbig : ∀ k, n / cs + 1 ≤ k → smallEnough n cs k = true := by
    intro k hk
    refine smallEnough_of n cs k (Nat.lt_of_lt_of_le (Nat.succ_pos _) hk) ?_
    have : n < cs * (n / cs + 1) := Nat.lt_mul_div_succ n hcs
    calc n ≤ cs * (n / cs + 1) := this.le
      _ ≤ cs * k := Nat.mul_le_mul_left _ hk
      _ = k * cs := Nat.mul_comm _ _
  have h1 : n / cs + 1 ≤ firstSplit n cs + 2 := by unfold firstSplit; omega
  have h2 := hbig (firstSplit n cs + 2) h1
  have hsome : ∃ m, ∀ fuel, 3 ≤ fuel → findSplit n cs fuel (firstSplit n cs) = some m := by
    by_cases s0 : smallEnough n cs (firstSplit n cs) = true
    · refine ⟨firstSplit n cs, fun fuel hf => ?_⟩
      obtain ⟨f, rfl⟩ := Nat.exists_eq_add_of_le' hf
      simp [findSplit, s0]
    · by_cases s1 : smallEnough n cs (firstSplit n cs + 1) = true
      · refine ⟨firstSplit n cs + 1, fun fuel hf => ?_⟩
        obtain ⟨f, rfl⟩ := Nat.exists_eq_add_of_le' hf
        simp [findSplit, s0, s1]
      · refine ⟨firstSplit n cs + 2, fun fuel hf => ?_⟩
        obtain ⟨f, rfl⟩ := Nat.exists_eq_add_of_le' hf
        simp [findSplit, s0, s1, h2]
  obtain ⟨m, hm⟩ := hsome
  obtain ⟨a1, a2, a3⟩ := findSplit_some (hm 3 (by omega))
  have := firstSplit_pos n cs
  refine ⟨m, hm, by omega, fun hn => ?_, a2⟩
  by_contra hlt
  have hn' : smallEnough n cs n = true := smallEnough_of n cs n (by omega) (Nat.le_mul_of_pos_right n hcs)
  have hle : firstSplit n cs ≤ n := by
    have := Nat.div_le_self n cs
    unfold firstSplit; omega
  have := a3 n hle (by omega)
  rw [hn'] at this
  exact absurd this (by simp)

theorem splitPoint_lt (n m i : Nat) (hm : 0 < m) (hmn : m ≤ n) (hi : i < m) : splitPoint n m i < n := by
  have h : ∀ k, splitPoint n m i + k ≤ splitPoint n m (i + k) := by
    intro k
    induction k with
    | zero => simp
    | succ k ih =>
      have := (splitPoint_step n m (i + k) hm).1
      have h1 : 1 ≤ n / m := (Nat.one_le_div_iff hm).mpr hmn
      rw [← Nat.add_assoc, ← Nat.add_assoc]
      generalize n / m = q at *
      omega
  have := h (m - i)
  rw [Nat.add_sub_cancel' hi.le] at this
  have hmm : splitPoint n m m = n := by unfold splitPoint; exact Nat.mul_div_cancel_left n hm
  omega

theorem takeWhile_all {α : Type} (p : α → Bool) (l : List α) (h : ∀ x ∈ l, p x = true) : l.takeWhile p = l := by
  induction l with
  | nil => rfl
  | cons a l ih => rw [List.takeWhile_cons, h a (by simp), if_pos rfl, ih fun x hx => h x (by simp [hx])]

theorem ranges_eq (n m : Nat) (hm : 0 < m) (hmn : m ≤ n) :
    ranges n m = (List.range m).map fun i => (splitPoint n m i, splitPoint n m (i + 1)) := by
  unfold ranges
  refine takeWhile_all _ _ fun p hp => ?_
  obtain ⟨i, hi, rfl⟩ := List.mem_map.mp hp
  rw [List.mem_range] at hi
  simpa using splitPoint_lt n m i hm hmn hi

theorem ranges_zero (m : Nat) : ranges 0 m = [] := by
  unfold ranges
  cases (List.range m).map fun i => (splitPoint 0 m i, splitPoint 0 m (i + 1)) with
  | nil => rfl
  | cons a l => simp [List.takeWhile_cons]

theorem splitPoint_mono (n m i : Nat) (hm : 0 < m) : splitPoint n m i ≤ splitPoint n m (i + 1) := by
  exact Nat.le_trans (Nat.le_add_right _ _) (splitPoint_step n m i hm).1

theorem flatten_read (table : List Row) (m : Nat) (hm : 0 < m) (k : Nat) :
    (((List.range k).map fun i => (splitPoint table.length m i, splitPoint table.length m (i + 1))).map (readRows table)).flatten =
      table.take (splitPoint table.length m k) := by
  induction k with
  | zero => simp [splitPoint]
  | succ k ih =>
    rw [List.range_succ, List.map_append, List.map_append, List.flatten_append, ih]
    simp only [List.map_cons, List.map_nil, List.flatten_cons, List.flatten_nil, List.append_nil, readRows]
    rw [← List.take_add]
    congr 1
    have := splitPoint_mono table.length m k hm
    omega

/-- The chunks of a table that are read. -/
def chunksOf (table : List Row) (cs : Nat) : List (List Row) :=
  match findSplit table.length cs 3 (firstSplit table.length cs) with
  | none => []
  | some m => (ranges table.length m).map (readRows table)

theorem chunksOf_spec (table : List Row) (cs : Nat) (hcs : 0 < cs) :
    (chunksOf table cs).flatten = table ∧ (∀ c ∈ chunksOf table cs, c ≠ [] ∧ c.length ≤ cs) ∧
    (∀ c ∈ chunksOf table cs, ∀ c' ∈ chunksOf table cs, c.length ≤ c'.length + 1) := by
  obtain ⟨m, h1, h2, h3, h4⟩ := findSplit_fuel table.length cs 3 hcs (le_refl _)
  unfold chunksOf
  rw [h1 3 (le_refl _)]
  dsimp only
  rcases Nat.eq_zero_or_pos table.length with h0 | h0
  · rw [List.length_eq_zero_iff] at h0
    subst h0
    simp [ranges_zero]
  · have hmn := h3 h0
    have hlen : ∀ i < m, (readRows table (splitPoint table.length m i, splitPoint table.length m (i + 1))).length =
        splitPoint table.length m (i + 1) - splitPoint table.length m i := by
      intro i hi
      simp only [readRows, List.length_take, List.length_drop]
      have : splitPoint table.length m (i + 1) ≤ table.length := by
        rcases Nat.lt_or_ge (i + 1) m with h | h
        · exact (splitPoint_lt _ _ _ h2 hmn h).le
        · have : i + 1 = m := by omega
          rw [this]
          unfold splitPoint; rw [Nat.mul_div_cancel_left _ h2]
      omega
    rw [ranges_eq _ _ h2 hmn]
    have h1m : 1 ≤ table.length / m := (Nat.one_le_div_iff h2).mpr hmn
    refine ⟨?_, ?_, ?_⟩
    · rw [flatten_read table m h2 m]
      unfold splitPoint
      rw [Nat.mul_div_cancel_left _ h2, List.take_length]
    · intro c hc
      rw [List.map_map, List.mem_map] at hc
      obtain ⟨i, hi, rfl⟩ := hc
      rw [List.mem_range] at hi
      have hs := (splitPoint_step table.length m i h2).1
      have hle := (smallEnough_iff _ _ _).mp h4 i hi
      refine ⟨?_, ?_⟩
      · rw [Function.comp_apply, ← List.length_pos_iff, hlen i hi]; omega
      · rw [Function.comp_apply, hlen i hi]; exact hle
    · intro c hc c' hc'
      rw [List.map_map, List.mem_map] at hc hc'
      obtain ⟨i, hi, rfl⟩ := hc
      obtain ⟨j, hj, rfl⟩ := hc'
      rw [List.mem_range] at hi hj
      rw [Function.comp_apply, Function.comp_apply, hlen i hi, hlen j hj]
      have hs := splitPoint_step table.length m i h2
      have hs' := splitPoint_step table.length m j h2
      omega

theorem chunksOf_one (table : List Row) (cs : Nat) (hne : table ≠ []) (h : table.length ≤ cs) : chunksOf table cs = [table] := by
  have hpos := List.length_pos_iff.mpr hne
  have hcs : 0 < cs := by omega
  have hfirst : firstSplit table.length cs = 1 := by
    unfold firstSplit
    have : table.length / cs ≤ 1 := by
      rw [Nat.div_le_iff_le_mul_add_pred hcs]; omega
    omega
  unfold chunksOf
  rw [hfirst, findSplit, if_pos (smallEnough_of _ _ _ (by omega) (by omega))]
  dsimp only
  rw [ranges_eq _ _ (by omega) (by omega)]
  simp [splitPoint, readRows]

/-! ### The loop over the chunks -/

theorem dut_eq (np : Numpy) (args : Args) (fuel : Nat) (hf : 3 ≤ fuel) (params : List String) (d : DutConf) (table : List Row)
    (hcs : 0 < args.chunkSize) :
    dutTransformation np args fuel params d table =
      match chunkLoop np d args.useLimits params (args.maxIterations.getD 100) (chunksOf table args.chunkSize) none with
      | .error e => .error e
      | .ok avg => finish avg := by
  obtain ⟨m, h1, -⟩ := findSplit_fuel table.length args.chunkSize 3 hcs (le_refl _)
  unfold dutTransformation chunksOf
  rw [if_neg (by omega), h1 fuel hf, h1 3 (le_refl _)]
  rfl

/-- State of the loop after the results `rs`. -/
structure Averaged (rs : List ((Mat3 × Vec3) × Nat)) (a : Average) : Prop where
  total : a.total = (rs.map Prod.snd).sum
  translation : (a.total : ℝ) • a.translation = (rs.map fun r => (r.2 : ℝ) • r.1.2).sum
  rotation : ∃ r, rs.getLast? = some r ∧ a.rotation = r.1.1
  one : rs.length = 1 → ∃ r, rs = [r] ∧ a.translation = r.1.2
  many : 2 ≤ rs.length → 0 < a.total

theorem averaged_step {rs : List ((Mat3 × Vec3) × Nat)} {a a' : Average} (h : Averaged rs a) (hne : rs ≠ [])
    (r : (Mat3 × Vec3) × Nat) (h' : addChunk (some a) r = .ok a') : Averaged (rs ++ [r]) a' := by
  have hpos := List.length_pos_iff.mpr hne
  unfold addChunk at h'
  dsimp only at h'
  split at h'
  · simp at h'
  · next h0 =>
    simp only [Except.ok.injEq] at h'
    subst h'
    refine ⟨?_, ?_, ⟨r, by simp, rfl⟩, ?_, ?_⟩
    · simp [h.total]
    · dsimp only
      rw [List.map_append, List.sum_append, ← h.translation, smul_smul]
      have hc : ((a.total + r.2 : Nat) : ℝ) * ((r.2 + a.total : Nat) : ℝ)⁻¹ = 1 := by
        rw [Nat.add_comm a.total]
        exact mul_inv_cancel₀ (by exact_mod_cast h0)
      rw [hc, one_smul]
      simp [add_comm]
    · intro h1; rw [List.length_append, List.length_singleton] at h1; omega
    · intro _; dsimp only; omega

theorem chunkLoop_some {np : Numpy} {d : DutConf} {ul : Bool} {params : List String} {it : Nat} {cs : List (List Row)}
    {rs : List ((Mat3 × Vec3) × Nat)} {a : Average} {out : Option Average} (ha : Averaged rs a) (hne : rs ≠ [])
    (h : chunkLoop np d ul params it cs (some a) = .ok out) :
    ∃ rs' a', out = some a' ∧ List.Forall₂ (fun c r => chunkResult np d ul params it c = .ok r) cs rs' ∧ Averaged (rs ++ rs') a' := by
  induction cs generalizing rs a with
  | nil =>
    simp only [chunkLoop, Except.ok.injEq] at h
    exact ⟨[], a, h.symm, .nil, by simpa using ha⟩
  | cons c cs ih =>
    rw [chunkLoop] at h
    split at h
    · simp at h
    · next r hr =>
      split at h
      · simp at h
      · next a1 ha1 =>
        obtain ⟨rs', a', h1, h2, h3⟩ := ih (averaged_step ha hne r ha1) (by simp) h
        exact ⟨r :: rs', a', h1, .cons hr h2, by simpa using h3⟩

theorem chunkLoop_none {np : Numpy} {d : DutConf} {ul : Bool} {params : List String} {it : Nat} {cs : List (List Row)}
    {out : Option Average} (hne : cs ≠ []) (h : chunkLoop np d ul params it cs none = .ok out) :
    ∃ rs a, out = some a ∧ List.Forall₂ (fun c r => chunkResult np d ul params it c = .ok r) cs rs ∧ Averaged rs a := by
  cases cs with
  | nil => exact absurd rfl hne
  | cons c cs =>
    rw [chunkLoop] at h
    split at h
    · simp at h
    · next r hr =>
      have h1 : addChunk none r = .ok ⟨r.1.2, r.1.1, r.1.1, r.2⟩ := rfl
      rw [h1] at h
      dsimp only at h
      have ha : Averaged [r] ⟨r.1.2, r.1.1, r.1.1, r.2⟩ := ⟨by simp, by simp, ⟨r, by simp, rfl⟩, fun _ => ⟨r, rfl, rfl⟩, by simp⟩
      obtain ⟨rs', a', h2, h3, h4⟩ := chunkLoop_some ha (by simp) h
      exact ⟨r :: rs', a', h2, .cons hr h3, h4⟩

/-! ### Tracks of a chunk -/

/-- The track of a row in global coordinates. -/
noncomputable def mkTrack (d : DutConf) (p : Vec3 × Row) : Track :=
  ⟨p.1, rotated d.alignment p.2.offset + position d.alignment, rotated d.alignment p.2.slope⟩

theorem inLimit_iff (limit : Option (Option ℝ × Option ℝ)) (v : ℝ) : inLimit limit v ↔ Within limit v := by
  unfold inLimit Within
  rcases limit with _ | ⟨a, b⟩
  · simp
  · cases a <;> cases b <;> simp

theorem mem_withHit (rows : List Row) (h : Vec3) (r : Row) : (h, r) ∈ withHit rows ↔ r ∈ rows ∧ r.fitted = true ∧ r.hit = some h := by
  unfold withHit
  simp only [List.mem_filterMap, List.mem_filter, Option.map_eq_some_iff, Prod.mk.injEq]
  constructor
  · rintro ⟨r', ⟨h1, h2⟩, h', h3, rfl, rfl⟩; exact ⟨h1, h2, h3⟩
  · rintro ⟨h1, h2, h3⟩; exact ⟨r, ⟨h1, h2⟩, h, h3, rfl, rfl⟩

theorem zip_tracks (d : DutConf) (sel : List (Vec3 × Row)) :
    List.zipWith (fun (h : Vec3) (q : Vec3 × Vec3) => (⟨h, q.1, q.2⟩ : Track)) (sel.map Prod.fst)
      ((sel.map fun p => rotated d.alignment p.2.offset + position d.alignment).zip (sel.map fun p => rotated d.alignment p.2.slope)) =
    sel.map (mkTrack d) := by
  induction sel with
  | nil => rfl
  | cons a l ih => simp only [List.map_cons, List.zip_cons_cons, List.zipWith_cons_cons, ih, mkTrack]

/-- The tracks of a chunk, if it has some. -/
theorem tracksOf_ok {d : DutConf} {ul : Bool} {rows : List Row} {ts : List Track} (h : tracksOf d ul rows = .ok ts) (t : Track) :
    t ∈ ts ↔ ∃ r ∈ rows, ∃ h, Uses d ul r h ∧ t = mkTrack d (h, r) := by
  classical
  unfold tracksOf at h
  dsimp only at h
  split at h
  · simp at h
  · next offsets ho =>
    have ho := BTA.Props.C30_formula _ _ _ _ ho
    split at h
    · simp at h
    · next slopes hs =>
      have hs := BTA.Props.C30_formula _ _ _ _ hs
      split at h
      · simp at h
      · have e1 : offsets = (withHit rows).map fun p => rotated d.alignment p.2.offset + position d.alignment := by
          rw [ho, List.map_map]; rfl
        have e2 : slopes = (withHit rows).map fun p => rotated d.alignment p.2.slope := by
          rw [hs, List.map_map]
          refine List.map_congr_left fun p _ => ?_
          show (rotationMatrix d.alignment.alpha d.alignment.beta d.alignment.gamma).mulVec p.2.slope + ![0, 0, 0] = _
          have : (![0, 0, 0] : Vec3) = 0 := by ext i; fin_cases i <;> rfl
          rw [this, add_zero]; rfl
        rw [e1, e2, zip_tracks] at h
        simp only [Except.ok.injEq] at h
        have hmem : ∀ t, t ∈ (withHit rows).map (mkTrack d) ↔ ∃ r ∈ rows, ∃ h, r.fitted = true ∧ r.hit = some h ∧ t = mkTrack d (h, r) := by
          intro t
          rw [List.mem_map]
          constructor
          · rintro ⟨⟨h, r⟩, hm, rfl⟩
            obtain ⟨h1, h2, h3⟩ := (mem_withHit _ _ _).mp hm
            exact ⟨r, h1, h, h2, h3, rfl⟩
          · rintro ⟨r, h1, h, h2, h3, rfl⟩
            exact ⟨(h, r), (mem_withHit _ _ _).mpr ⟨h1, h2, h3⟩, rfl⟩
        subst h
        split
        · next hul =>
          rw [List.mem_filter, hmem]
          simp only [Bool.and_eq_true, decide_eq_true_eq, inLimit_iff]
          constructor
          · rintro ⟨⟨r, h1, h, h2, h3, rfl⟩, h4⟩
            exact ⟨r, h1, h, ⟨h2, h3, fun _ => h4⟩, rfl⟩
          · rintro ⟨r, h1, h, ⟨h2, h3, h4⟩, rfl⟩
            exact ⟨⟨r, h1, h, h2, h3, rfl⟩, h4 hul⟩
        · next hul =>
          rw [hmem]
          constructor
          · rintro ⟨r, h1, h, h2, h3, rfl⟩
            exact ⟨r, h1, h, ⟨h2, h3, fun h' => absurd h' hul⟩, rfl⟩
          · rintro ⟨r, h1, h, ⟨h2, h3, h4⟩, rfl⟩
            exact ⟨r, h1, h, h2, h3, rfl⟩

theorem tracksOf_exists {d : DutConf} {ul : Bool} {rows : List Row} (h : OnSensor rows) : ∃ ts, tracksOf d ul rows = .ok ts := by
  have h1 : localToGlobal d.alignment {} ((withHit rows).map fun p => p.2.offset) ≠ .error .zNotZero := by
    intro he
    obtain ⟨-, -, p, hp, hlt⟩ := (BTA.Props.C30_error_iff _ _ _ _).mp he
    obtain ⟨⟨hh, r⟩, hm, rfl⟩ := List.mem_map.mp hp
    obtain ⟨a1, -, a3⟩ := (mem_withHit _ _ _).mp hm
    exact absurd (h r a1 hh a3).2 (not_le.mpr hlt)
  have h2 : zClose ((withHit rows).map fun p => p.1 2) = true := by
    unfold zClose
    rw [List.all_eq_true]
    intro z hz
    obtain ⟨⟨hh, r⟩, hm, rfl⟩ := List.mem_map.mp hz
    obtain ⟨a1, -, a3⟩ := (mem_withHit _ _ _).mp hm
    simpa using (h r a1 hh a3).1
  unfold tracksOf
  dsimp only
  cases e1 : localToGlobal d.alignment {} ((withHit rows).map fun p => p.2.offset) with
  | error e =>
    have := ((BTA.Props.C30_error_iff _ _ _ _).mp e1).1
    subst this
    exact absurd e1 h1
  | ok offsets =>
    dsimp only
    cases e2 : localToGlobal d.alignment (slopeOverride d.alignment) ((withHit rows).map fun p => p.2.slope) with
    | error e =>
      have := ((BTA.Props.C30_error_iff _ _ _ _).mp e2).2.1.1
      simp [slopeOverride] at this
    | ok slopes =>
      dsimp only
      rw [h2]
      exact ⟨_, rfl⟩

/-! ### The linear system -/

theorem skew_mulVec (a w : Vec3) : (skew a).mulVec w = -cross w a := by
  ext i
  fin_cases i <;> simp [skew, cross, Matrix.mulVec, dotProduct, Fin.sum_univ_three, Matrix.diagonal, Matrix.sub_apply,
    Matrix.transpose_apply, show (-1 : Fin 3) = 2 from rfl] <;> ring

theorem lMatrix_mulVec (s v : Vec3) : (lMatrix s).mulVec v = v - (s 0 * v 0 + s 1 * v 1 + s 2 * v 2) • s := by
  ext i
  simp only [lMatrix, Matrix.sub_mulVec, Matrix.one_mulVec, Pi.sub_apply, Pi.smul_apply, smul_eq_mul]
  congr 1
  simp [Matrix.mulVec, dotProduct, Fin.sum_univ_three, Matrix.vecMulVec_apply]
  ring

theorem lMatrix_slope (s : Vec3) (h : UnitVector s) (t : ℝ) : (lMatrix s).mulVec (t • s) = 0 := by
  rw [lMatrix_mulVec]
  unfold UnitVector at h
  ext i
  simp only [Pi.sub_apply, Pi.smul_apply, smul_eq_mul, Pi.zero_apply]
  linear_combination (-t * s i) * h

/-- The system applied to a change of the parameters. -/
theorem systemRows_times (R : Mat3) (t : Track) (w : Fin 6 → ℝ) :
    (systemRows R t).map (fun row => times row w) = (List.finRange 3).map fun i =>
      (lMatrix t.slope).mulVec (-(cross ![w 0, w 1, w 2] (R.mulVec t.hit) + ![w 3, w 4, w 5])) i := by
  unfold systemRows
  dsimp only
  rw [List.map_map]
  refine List.map_congr_left fun i _ => ?_
  have h1 : (lMatrix t.slope * skew (R.mulVec t.hit)).mulVec ![w 0, w 1, w 2] =
      (lMatrix t.slope).mulVec (-cross ![w 0, w 1, w 2] (R.mulVec t.hit)) := by
    rw [← Matrix.mulVec_mulVec, skew_mulVec]
  have h2 : (lMatrix t.slope * (-1 : Mat3)).mulVec ![w 3, w 4, w 5] = (lMatrix t.slope).mulVec (-![w 3, w 4, w 5]) := by
    rw [← Matrix.mulVec_mulVec, Matrix.neg_mulVec, Matrix.one_mulVec]
  rw [neg_add, Matrix.mulVec_add, ← h1, ← h2]
  simp only [Function.comp_apply, times, Pi.add_apply, Matrix.mulVec, dotProduct, Fin.sum_univ_three]
  generalize lMatrix t.slope * skew (R.mulVec t.hit) = A
  generalize lMatrix t.slope * (-1 : Mat3) = B
  simp
  ring

/-- The columns are independent if the tracks determine all parameters. -/
theorem independent_of_rigid {d : DutConf} {ul : Bool} {rows : List Row} {ts : List Track} (ht : tracksOf d ul rows = .ok ts)
    (hr : Rigid d ul rows) (w : Fin 6 → ℝ)
    (hw : ∀ row ∈ ts.flatMap (systemRows (rotationMatrix d.alignment.alpha d.alignment.beta d.alignment.gamma)), times row w = 0) :
    w = 0 := by
  obtain ⟨h1, h2⟩ := hr ![w 0, w 1, w 2] ![w 3, w 4, w 5] (by
    intro r hrm h hu
    set t := mkTrack d (h, r) with htd
    have hmem : t ∈ ts := (tracksOf_ok ht t).mpr ⟨r, hrm, h, hu, rfl⟩
    have hz : (lMatrix t.slope).mulVec (-(cross ![w 0, w 1, w 2] (rotated d.alignment h) + ![w 3, w 4, w 5])) = 0 := by
      have := systemRows_times (rotationMatrix d.alignment.alpha d.alignment.beta d.alignment.gamma) t w
      ext i
      have hi := congrArg (fun l => ∀ x ∈ l, x = 0) this
      simp only [List.mem_map, List.mem_finRange, true_and, forall_exists_index, and_imp, forall_apply_eq_imp_iff₂,
        forall_apply_eq_imp_iff] at hi
      exact (hi.mp fun row hrow => hw row (List.mem_flatMap.mpr ⟨t, hmem, hrow⟩)) i
    rw [lMatrix_mulVec, sub_eq_zero] at hz
    have hz := congrArg Neg.neg hz
    rw [neg_neg, ← neg_smul] at hz
    exact ⟨_, hz⟩)
  ext i
  have a0 := congrFun h1 0
  have a1 := congrFun h1 1
  have a2 := congrFun h1 2
  have a3 := congrFun h2 0
  have a4 := congrFun h2 1
  have a5 := congrFun h2 2
  simp at a0 a1 a2 a3 a4 a5
  fin_cases i <;> simp [a0, a1, a2, a3, a4, a5]

/-- Right side of the system, for hits that are on their tracks if the DUT is at `pos`. -/
theorem systemRhs_eq (d : DutConf) (pos : Vec3) (r : Row) (h : Vec3) (hon : HitOnTrack d pos r h)
    (hu : UnitVector (rotated d.alignment r.slope)) (translation : Vec3) :
    (systemRhs (rotationMatrix d.alignment.alpha d.alignment.beta d.alignment.gamma) translation (mkTrack d (h, r))).map (fun b => -1 * b) =
    (systemRows (rotationMatrix d.alignment.alpha d.alignment.beta d.alignment.gamma) (mkTrack d (h, r))).map fun row =>
      times row ![0, 0, 0, pos 0 - translation 0, pos 1 - translation 1, pos 2 - translation 2] := by
  rw [systemRows_times]
  unfold systemRhs
  dsimp only
  rw [List.map_map]
  refine List.map_congr_left fun i _ => ?_
  obtain ⟨l, hl⟩ := hon
  have e1 : (mkTrack d (h, r)).offset = rotated d.alignment h + pos - l • rotated d.alignment r.slope := by
    rw [hl]; simp [mkTrack]
  have hc : ∀ x : Vec3, cross (![0, 0, 0] : Vec3) x = 0 := by
    intro x; ext i; fin_cases i <;> simp [cross]
  have e2 : (![pos 0 - translation 0, pos 1 - translation 1, pos 2 - translation 2] : Vec3) = pos - translation := by
    ext i; fin_cases i <;> rfl
  have e3 : (rotationMatrix d.alignment.alpha d.alignment.beta d.alignment.gamma).mulVec (mkTrack d (h, r)).hit = rotated d.alignment h := rfl
  have e4 : (mkTrack d (h, r)).slope = rotated d.alignment r.slope := rfl
  have hw : cross ![(![0, 0, 0, pos 0 - translation 0, pos 1 - translation 1, pos 2 - translation 2] : Fin 6 → ℝ) 0,
      (![0, 0, 0, pos 0 - translation 0, pos 1 - translation 1, pos 2 - translation 2] : Fin 6 → ℝ) 1,
      (![0, 0, 0, pos 0 - translation 0, pos 1 - translation 1, pos 2 - translation 2] : Fin 6 → ℝ) 2] (rotated d.alignment h) +
      ![(![0, 0, 0, pos 0 - translation 0, pos 1 - translation 1, pos 2 - translation 2] : Fin 6 → ℝ) 3,
      (![0, 0, 0, pos 0 - translation 0, pos 1 - translation 1, pos 2 - translation 2] : Fin 6 → ℝ) 4,
      (![0, 0, 0, pos 0 - translation 0, pos 1 - translation 1, pos 2 - translation 2] : Fin 6 → ℝ) 5] = pos - translation := by
    show cross ![0, 0, 0] (rotated d.alignment h) + ![pos 0 - translation 0, pos 1 - translation 1, pos 2 - translation 2] = _
    rw [hc, zero_add, e2]
  rw [Function.comp_apply, e3, e4, e1, hw, ← Matrix.mulVec_sub]
  have : rotated d.alignment h + pos - l • rotated d.alignment r.slope - (rotated d.alignment h + translation) =
      (pos - translation) + (-l) • rotated d.alignment r.slope := by
    rw [neg_smul]; abel
  rw [this, Matrix.mulVec_add, lMatrix_slope _ hu, add_zero, Matrix.mulVec_neg, Pi.neg_apply]
  ring

theorem unit_rotated (a : Alignment) (v : Vec3) (h : UnitVector v) : UnitVector (rotated a v) := by
  have key : ∀ u : Vec3, u 0 ^ 2 + u 1 ^ 2 + u 2 ^ 2 = dotProduct u u := by
    intro u; simp [dotProduct, Fin.sum_univ_three]; ring
  unfold UnitVector at *
  rw [key] at *
  unfold rotated
  rw [Matrix.dotProduct_mulVec, Matrix.vecMul_mulVec, rotationMatrix_orth, Matrix.vecMul_one]
  exact h

/-! ### The iterations -/

theorem orthogonalize_eq (np : Numpy) (h : SvdCorrect np) (R : Mat3) (hR : R.transpose * R = 1) : orthogonalize np R = R := by
  obtain ⟨h1, h2, h3, h4⟩ := h R hR
  unfold orthogonalize
  generalize (np.svd R).1 = u at *
  generalize (np.svd R).2.1 = s at *
  generalize (np.svd R).2.2 = v at *
  have h5 : v.transpose * v = 1 := mul_eq_one_comm.mp h2
  have hd : Matrix.diagonal s = u.transpose * R * v.transpose := by
    rw [h4]
    calc Matrix.diagonal s = (u.transpose * u) * Matrix.diagonal s * (v * v.transpose) := by rw [h1, h2, Matrix.one_mul, Matrix.mul_one]
      _ = _ := by simp only [Matrix.mul_assoc]
  have hu' : u * u.transpose = 1 := mul_eq_one_comm.mp h1
  have hdd : (Matrix.diagonal s).transpose * Matrix.diagonal s = 1 := by
    rw [hd]
    simp only [Matrix.transpose_mul, Matrix.transpose_transpose]
    calc v * (R.transpose * u) * (u.transpose * R * v.transpose) = v * (R.transpose * (u * u.transpose) * R) * v.transpose := by
          simp only [Matrix.mul_assoc]
      _ = 1 := by rw [hu', Matrix.mul_one, hR, Matrix.mul_one, h2]
  have hs : s = 1 := by
    rw [Matrix.diagonal_transpose, Matrix.diagonal_mul_diagonal] at hdd
    ext i
    have := congrFun (congrFun hdd i) i
    rw [Matrix.diagonal_apply_eq, Matrix.one_apply_eq] at this
    have h0 := h3 i
    rw [Pi.one_apply]
    nlinarith
  rw [h4, hs]
  have : Matrix.diagonal (1 : Vec3) = 1 := Matrix.diagonal_one
  rw [this, Matrix.mul_one]

theorem skew_zero : skew (![0, 0, 0] : Vec3) = 0 := by
  have : (![0, 0, 0] : Vec3) = 0 := by ext i; fin_cases i <;> rfl
  rw [this]
  ext i j
  simp [skew]

/-- A step that changes no rotation. -/
theorem advance_rotation (np : Numpy) (h : SvdCorrect np) (R : Mat3) (hR : R.transpose * R = 1) (deltaT : ℝ) (omega : Fin 6 → ℝ)
    (t : Vec3) (h0 : omega 0 = 0) (h1 : omega 1 = 0) (h2 : omega 2 = 0) : (advance np deltaT omega R t).1 = R := by
  unfold advance
  rw [h0, h1, h2, skew_zero, smul_zero, add_zero, Matrix.one_mul]
  exact orthogonalize_eq np h R hR

theorem advance_translation (np : Numpy) (deltaT : ℝ) (params : List String) (omega : Fin 6 → ℝ) (R : Mat3) (t : Vec3) (j : Fin 3) :
    (advance np deltaT (restrict params omega) R t).2 j =
      t j + deltaT * (if translationName j ∈ params then (![omega 3, omega 4, omega 5] : Vec3) j else 0) := by
  unfold advance
  fin_cases j <;> simp [restrict, translationName] <;> split_ifs with h <;> simp [h]

theorem applyColumns_zero (c : List (Fin 6 → ℝ)) (b : List ℝ) (h : ∀ x ∈ b, x = 0) : applyColumns c b = 0 := by
  unfold applyColumns
  induction c generalizing b with
  | nil => simp
  | cons a c ih =>
    cases b with
    | nil => simp
    | cons x b =>
      rw [List.zipWith_cons_cons, List.sum_cons, ih b fun y hy => h y (by simp [hy]), h x (by simp)]
      simp

theorem rhs_eq {d : DutConf} {ul : Bool} {rows : List Row} {ts : List Track} (ht : tracksOf d ul rows = .ok ts) {pos : Vec3}
    (hon : AllOnTrack d ul pos rows) (t : Vec3) :
    (ts.flatMap (systemRhs (rotationMatrix d.alignment.alpha d.alignment.beta d.alignment.gamma) t)).map (fun b => -1 * b) =
      (ts.flatMap (systemRows (rotationMatrix d.alignment.alpha d.alignment.beta d.alignment.gamma))).map fun row =>
        times row ![0, 0, 0, pos 0 - t 0, pos 1 - t 1, pos 2 - t 2] := by
  rw [List.map_flatMap, List.map_flatMap]
  refine List.flatMap_congr fun x hx => ?_
  obtain ⟨r, hr, h, hu, rfl⟩ := (tracksOf_ok ht x).mp hx
  obtain ⟨h1, h2⟩ := hon r hr h hu
  exact systemRhs_eq d pos r h h2 (unit_rotated _ _ h1) t

/-- The solution of the system: the missing translation, no rotation. -/
theorem solve_eq {np : Numpy} (hp : PinvCorrect np) {d : DutConf} {ul : Bool} {rows : List Row} {ts : List Track}
    (ht : tracksOf d ul rows = .ok ts) {pos : Vec3} (hon : AllOnTrack d ul pos rows) (hr : Rigid d ul rows) (t : Vec3) :
    solve np ts (rotationMatrix d.alignment.alpha d.alignment.beta d.alignment.gamma) t =
      some ![0, 0, 0, pos 0 - t 0, pos 1 - t 1, pos 2 - t 2] := by
  obtain ⟨inv, h1, h2⟩ := hp _ (independent_of_rigid ht hr)
  unfold solve
  rw [h1, Option.map_some, rhs_eq ht hon, applyColumns, h2]

/-- The solution for a DUT at its place. -/
theorem solve_aligned {np : Numpy} {d : DutConf} {ul : Bool} {rows : List Row} {ts : List Track}
    (ht : tracksOf d ul rows = .ok ts) {pos : Vec3} (hon : AllOnTrack d ul pos rows) {omega : Fin 6 → ℝ}
    (h : solve np ts (rotationMatrix d.alignment.alpha d.alignment.beta d.alignment.gamma) pos = some omega) : omega = 0 := by
  unfold solve at h
  rw [rhs_eq ht hon, Option.map_eq_some_iff] at h
  obtain ⟨inv, -, rfl⟩ := h
  apply applyColumns_zero
  intro x hx
  obtain ⟨row, -, rfl⟩ := List.mem_map.mp hx
  simp [times]

theorem restrict_rotation (params : List String) (omega : Fin 6 → ℝ) (h0 : omega 0 = 0) (h1 : omega 1 = 0) (h2 : omega 2 = 0) :
    restrict params omega 0 = 0 ∧ restrict params omega 1 = 0 ∧ restrict params omega 2 = 0 := by
  simp [restrict, h0, h1, h2]

/-- Property `P` of the result of the iterations, given a property that every step keeps. -/
theorem iterate_inv {np : Numpy} {params : List String} {ts : List Track} (P : Mat3 × Vec3 → Prop)
    (hstep : ∀ cur deltaT omega, P cur → solve np ts cur.1 cur.2 = some omega → P (advance np deltaT (restrict params omega) cur.1 cur.2))
    {k i : Nat} {deltaT : ℝ} {old cur out : Mat3 × Vec3} (hc : P cur) (h : iterate np params ts k i deltaT old cur = .ok out) : P out := by
  induction k generalizing i deltaT old cur with
  | zero => rw [iterate] at h; simp only [Except.ok.injEq] at h; rwa [← h]
  | succ k ih =>
    rw [iterate] at h
    split at h
    · simp at h
    · next omega ho =>
      have hn := hstep cur deltaT omega hc ho
      dsimp only at h
      split at h
      · split at h
        · simp only [Except.ok.injEq] at h; rwa [← h]
        · split at h
          · exact ih hn h
          · exact ih hn h
      · exact ih hn h

/-- The result of the iterations for a shifted DUT. -/
theorem iterate_shift {np : Numpy} {params : List String} {ts : List Track} {R : Mat3} {pos : Vec3}
    (hs : ∀ t, solve np ts R t = some ![0, 0, 0, pos 0 - t 0, pos 1 - t 1, pos 2 - t 2])
    (hsvd : SvdCorrect np) (hR : R.transpose * R = 1) (k i : Nat) (deltaT : ℝ) (hd : deltaT = 0.9 ∨ deltaT = 0.3)
    (old : Mat3 × Vec3) (t : Vec3) :
    ∃ out, iterate np params ts k i deltaT old (R, t) = .ok out ∧ out.1 = R ∧ ∀ j : Fin 3,
      (translationName j ∈ params → |out.2 j - pos j| ≤ max (7 / 3 * 1e-4) (0.7 ^ k * |t j - pos j|)) ∧
      (translationName j ∉ params → out.2 j = t j) := by
  induction k generalizing i deltaT old t with
  | zero => exact ⟨(R, t), by rw [iterate], rfl, fun j => ⟨fun _ => by simp, fun _ => rfl⟩⟩
  | succ k ih =>
    rw [iterate]
    dsimp only
    rw [hs t]
    dsimp only
    set omega : Fin 6 → ℝ := ![0, 0, 0, pos 0 - t 0, pos 1 - t 1, pos 2 - t 2] with hom
    set new := advance np deltaT (restrict params omega) R t with hnew
    have hrot : new.1 = R := by
      obtain ⟨h0, h1, h2⟩ := restrict_rotation params omega rfl rfl rfl
      exact advance_rotation np hsvd R hR deltaT _ t h0 h1 h2
    have hv : ∀ j : Fin 3, (![omega 3, omega 4, omega 5] : Vec3) j = pos j - t j := by
      intro j; fin_cases j <;> rfl
    have htr : ∀ j : Fin 3, new.2 j = t j + deltaT * (if translationName j ∈ params then pos j - t j else 0) := by
      intro j; rw [hnew, advance_translation, hv]
    have hsel : ∀ j : Fin 3, translationName j ∈ params → new.2 j - pos j = (1 - deltaT) * (t j - pos j) := by
      intro j hj; rw [htr, if_pos hj]; ring
    have huns : ∀ j : Fin 3, translationName j ∉ params → new.2 j = t j := by
      intro j hj; rw [htr, if_neg hj]; ring
    have hcont : ∀ i' deltaT', deltaT' = 0.9 ∨ deltaT' = 0.3 → ∀ old', ∃ out, iterate np params ts k i' deltaT' old' new = .ok out ∧
        out.1 = R ∧ ∀ j : Fin 3,
        (translationName j ∈ params → |out.2 j - pos j| ≤ max (7 / 3 * 1e-4) (0.7 ^ (k + 1) * |t j - pos j|)) ∧
        (translationName j ∉ params → out.2 j = t j) := by
      intro i' deltaT' hd' old'
      obtain ⟨out, h1, h2, h3⟩ := ih i' deltaT' hd' old' new.2
      refine ⟨out, ?_, h2, fun j => ⟨fun hj => ?_, fun hj => ?_⟩⟩
      · rw [← h1, ← hrot]
      · refine ((h3 j).1 hj).trans (max_le_max (le_refl _) ?_)
        rw [hsel j hj, abs_mul, pow_succ, mul_assoc]
        refine mul_le_mul_of_nonneg_left (mul_le_mul_of_nonneg_right ?_ (abs_nonneg _)) (by positivity)
        rcases hd with rfl | rfl <;> norm_num [abs_le]
      · rw [(h3 j).2 hj, huns j hj]
    split
    · split
      · next hclose =>
        refine ⟨new, rfl, hrot, fun j => ⟨fun hj => ?_, fun hj => huns j hj⟩⟩
        refine le_max_of_le_left ?_
        have hc := hclose.2 j
        have e1 : new.2 j - t j = -deltaT * (t j - pos j) := by rw [htr, if_pos hj]; ring
        rw [e1, abs_mul] at hc
        rw [hsel j hj, abs_mul]
        rcases hd with rfl | rfl <;> norm_num [abs_of_pos, abs_of_neg] at hc ⊢ <;> linarith
      · split
        · exact hcont _ _ (.inr rfl) _
        · exact hcont _ _ hd _
    · exact hcont _ _ hd _

/-! ### The average -/

/-- The average is not further away than the results of the chunks. -/
theorem averaged_close {rs : List ((Mat3 × Vec3) × Nat)} {a : Average} (h : Averaged rs a) (j : Fin 3) (c B : ℝ)
    (hb : ∀ r ∈ rs, |r.1.2 j - c| ≤ B) : |a.translation j - c| ≤ B := by
  have hne : rs ≠ [] := by
    obtain ⟨r, hr, -⟩ := h.rotation
    intro h0; simp [h0] at hr
  have hpos := List.length_pos_iff.mpr hne
  rcases Nat.lt_or_ge rs.length 2 with h1 | h1
  · obtain ⟨r, hr, he⟩ := h.one (by omega)
    rw [he]; exact hb r (by simp [hr])
  · have hN : (0 : ℝ) < a.total := by exact_mod_cast h.many h1
    have hsum : ∀ l : List ((Mat3 × Vec3) × Nat), (∀ r ∈ l, |r.1.2 j - c| ≤ B) →
        |(l.map fun r => (r.2 : ℝ) • r.1.2).sum j - ((l.map Prod.snd).sum : ℝ) * c| ≤ ((l.map Prod.snd).sum : ℝ) * B := by
      intro l
      induction l with
      | nil => intro _; simp
      | cons r l ih =>
        intro hl
        have h2 := ih fun r hr => hl r (by simp [hr])
        have h3 := hl r (by simp)
        simp only [List.map_cons, List.sum_cons, Pi.add_apply, Pi.smul_apply, smul_eq_mul, Nat.cast_add]
        have e : (r.2 : ℝ) * r.1.2 j + (l.map fun r => (r.2 : ℝ) • r.1.2).sum j - ((r.2 : ℝ) + ((l.map Prod.snd).sum : ℝ)) * c =
            (r.2 : ℝ) * (r.1.2 j - c) + ((l.map fun r => (r.2 : ℝ) • r.1.2).sum j - ((l.map Prod.snd).sum : ℝ) * c) := by ring
        rw [e, add_mul]
        refine (abs_add_le _ _).trans (add_le_add ?_ h2)
        rw [abs_mul, Nat.abs_cast]
        exact mul_le_mul_of_nonneg_left h3 (Nat.cast_nonneg _)
    have h2 := hsum rs hb
    rw [← h.translation, ← h.total, Pi.smul_apply, smul_eq_mul, ← mul_sub, abs_mul, abs_of_pos hN] at h2
    exact le_of_mul_le_mul_left h2 hN

theorem chunkResult_ok {np : Numpy} {d : DutConf} {ul : Bool} {params : List String} {it : Nat} {c : List Row}
    {r : (Mat3 × Vec3) × Nat} (h : chunkResult np d ul params it c = .ok r) :
    ∃ ts, tracksOf d ul c = .ok ts ∧ it ≠ 0 ∧ r.2 = ts.length ∧
      iterate np params ts it 0 0.9 (startOf d.alignment) (startOf d.alignment) = .ok r.1 := by
  unfold chunkResult at h
  split at h
  · simp at h
  · next ts hts =>
    split at h
    · simp at h
    · next h0 =>
      split at h
      · simp at h
      · next r' hr' =>
        simp only [Except.ok.injEq] at h
        subst h
        exact ⟨ts, hts, h0, rfl, hr'⟩

/-- What a successful call for a DUT means. -/
theorem dut_ok {np : Numpy} {args : Args} {fuel : Nat} (hf : 3 ≤ fuel) {params : List String} {d : DutConf} {table : List Row}
    {out : Alignment} (h : dutTransformation np args fuel params d table = .ok out) :
    0 < args.chunkSize ∧ table ≠ [] ∧ ∃ rs a,
      List.Forall₂ (fun c r => chunkResult np d args.useLimits params (args.maxIterations.getD 100) c = .ok r)
        (chunksOf table args.chunkSize) rs ∧ Averaged rs a ∧ position out = a.translation ∧
      eulerAngles a.rotation = .angles out.alpha out.beta out.gamma := by
  have hcs : 0 < args.chunkSize := by
    rcases Nat.eq_zero_or_pos args.chunkSize with h0 | h0
    · unfold dutTransformation at h; rw [if_pos h0] at h; simp at h
    · exact h0
  rw [dut_eq np args fuel hf params d table hcs] at h
  obtain ⟨hfl, -, -⟩ := chunksOf_spec table args.chunkSize hcs
  have hne : table ≠ [] := by
    rintro rfl
    have : chunksOf [] args.chunkSize = [] := by
      obtain ⟨-, h2, -⟩ := chunksOf_spec [] args.chunkSize hcs
      rw [List.eq_nil_iff_forall_not_mem]
      intro c hc
      have := (h2 c hc).1
      rw [List.flatten_eq_nil_iff] at hfl
      exact this (hfl c hc)
    rw [this] at h
    simp [chunkLoop, finish] at h
  refine ⟨hcs, hne, ?_⟩
  split at h
  · simp at h
  · next avg havg =>
    obtain ⟨rs, a, rfl, h1, h2⟩ := chunkLoop_none (by intro h0; rw [h0] at hfl; exact hne hfl.symm) havg
    unfold finish at h
    dsimp only at h
    split at h
    · next e =>
      simp only [Except.ok.injEq] at h
      subst h
      refine ⟨rs, a, h1, h2, ?_, e⟩
      unfold position
      ext i; fin_cases i <;> rfl
    · simp at h

theorem forall₂_right {α β : Type} {R : α → β → Prop} {l : List α} {m : List β} (h : List.Forall₂ R l m) (b : β) (hb : b ∈ m) :
    ∃ a ∈ l, R a b := by
  induction h with
  | nil => simp at hb
  | cons h1 h2 ih =>
    rcases List.mem_cons.mp hb with rfl | hb
    · exact ⟨_, by simp, h1⟩
    · obtain ⟨a, ha, h⟩ := ih hb; exact ⟨a, by simp [ha], h⟩

theorem forall₂_last {α β : Type} {R : α → β → Prop} {l : List α} {m : List β} (h : List.Forall₂ R l m) (b : β)
    (hb : m.getLast? = some b) : ∃ a, l.getLast? = some a ∧ R a b := by
  induction h with
  | nil => simp at hb
  | @cons x y l m h1 h2 ih =>
    cases h2 with
    | nil => simp at hb; subst hb; exact ⟨x, by simp, h1⟩
    | cons h3 h4 =>
      rw [List.getLast?_cons_cons] at hb ⊢
      exact ih hb

end BTA.Transformation
