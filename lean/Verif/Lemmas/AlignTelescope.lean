import Verif.Spec.AlignTelescope
import Verif.Lemmas.TrackAngle
import Verif.Lemmas.Prealign
import Verif.Props.Geometry
import Mathlib.Topology.MetricSpace.Bounded
import Mathlib.Topology.Algebra.Order.Field
/-
Lemmas about `align_telescope`.
-/
namespace BTA.AlignTel
open BTA.Geo BTA.Dut BTA.Spec BTA.Angle

/-- There is a singular value decomposition: the hypotheses of the theorems can be met. -/
theorem exists_svd : ∃ svd : List Vec3 → Vec3, ∀ rows, IsFirstSingular rows (svd rows) := by
  refine Classical.skolem.mp fun rows => ?_
  have hc : IsCompact {w : Vec3 | dot w w = 1} := by
    apply Metric.isCompact_of_isClosed_isBounded
    · exact isClosed_eq (by unfold dot; fun_prop) continuous_const
    · refine (Metric.isBounded_closedBall (x := (0 : Vec3)) (r := 1)).subset fun w hw => ?_
      rw [mem_closedBall_zero_iff, pi_norm_le_iff_of_nonneg zero_le_one]
      intro i
      rw [Real.norm_eq_abs]
      have hw : w 0 * w 0 + w 1 * w 1 + w 2 * w 2 = 1 := hw
      apply abs_le_one_iff_mul_self_le_one.mpr
      have h0 := mul_self_nonneg (w 0)
      have h1 := mul_self_nonneg (w 1)
      have h2 := mul_self_nonneg (w 2)
      fin_cases i
      · show w 0 * w 0 ≤ 1
        linarith
      · show w 1 * w 1 ≤ 1
        linarith
      · show w 2 * w 2 ≤ 1
        linarith
  have hcont : Continuous fun w : Vec3 => (rows.map fun q => dot q w ^ 2).sum := by
    induction rows with
    | nil => simpa using continuous_const
    | cons q rows ih =>
      simp only [List.map_cons, List.sum_cons]
      exact Continuous.add (by unfold dot; fun_prop) ih
  obtain ⟨v, hv, hmax⟩ := hc.exists_isMaxOn ⟨![1, 0, 0], by simp [dot]⟩ hcont.continuousOn
  exact ⟨v, hv, fun w hw => hmax hw⟩

theorem sum_projections (us : List ℝ) (d w : Vec3) :
    ((us.map fun u => u • d).map fun q => dot q w ^ 2).sum = (us.map fun u => u ^ 2).sum * dot d w ^ 2 := by
  induction us with
  | nil => simp
  | cons u us ih =>
    simp only [List.map_cons, List.sum_cons, ih]
    have : dot (u • d) w = u * dot d w := by simp [dot]; ring
    rw [this]
    ring

theorem sum_squares_pos (us : List ℝ) (u : ℝ) (hu : u ∈ us) (h : u ≠ 0) : 0 < (us.map fun u => u ^ 2).sum := by
  induction us with
  | nil => cases hu
  | cons x us ih =>
    simp only [List.map_cons, List.sum_cons]
    have hn : 0 ≤ (us.map fun u => u ^ 2).sum := List.sum_nonneg (by
      intro y hy
      obtain ⟨z, -, rfl⟩ := List.mem_map.mp hy
      positivity)
    rcases List.mem_cons.mp hu with rfl | hu
    · have : 0 < u ^ 2 := by positivity
      linarith
    · have := ih hu
      have : 0 ≤ x ^ 2 := by positivity
      linarith

/-- The singular vector of multiples of a vector is parallel to the vector. -/
theorem singular_parallel (us : List ℝ) (u : ℝ) (hu : u ∈ us) (h : u ≠ 0) (d v : Vec3) (hd : d ≠ 0)
    (hv : IsFirstSingular (us.map fun u => u • d) v) : ∃ k : ℝ, k ≠ 0 ∧ v = k • d := by
  obtain ⟨h1, h2⟩ := hv
  have hl : 0 < len d := lt_of_le_of_ne (len_nonneg d) fun h0 => hd (by
    obtain ⟨a, b, c⟩ := (len_eq_zero d).mp h0.symm
    ext i; fin_cases i <;> assumption)
  have hdd := len_sq d
  have h3 := h2 ((len d)⁻¹ • d) (by
    have : dot ((len d)⁻¹ • d) ((len d)⁻¹ • d) = (len d)⁻¹ ^ 2 * dot d d := by simp [dot]; ring
    rw [this, ← hdd, ← mul_pow, inv_mul_cancel₀ hl.ne', one_pow])
  rw [sum_projections, sum_projections] at h3
  have h4 := le_of_mul_le_mul_left h3 (sum_squares_pos us u hu h)
  have h5 : dot d ((len d)⁻¹ • d) = len d := by
    have : dot d ((len d)⁻¹ • d) = (len d)⁻¹ * dot d d := by simp [dot]; ring
    rw [this, ← hdd]
    field_simp
  rw [h5, hdd] at h4
  have lagrange : dot d d * dot v v - dot d v ^ 2 =
      (d 0 * v 1 - d 1 * v 0) ^ 2 + (d 1 * v 2 - d 2 * v 1) ^ 2 + (d 2 * v 0 - d 0 * v 2) ^ 2 := by unfold dot; ring
  rw [h1, mul_one] at lagrange
  have z1 : d 0 * v 1 - d 1 * v 0 = 0 := pow_eq_zero_iff (two_ne_zero) |>.mp (by
    nlinarith [sq_nonneg (d 0 * v 1 - d 1 * v 0), sq_nonneg (d 1 * v 2 - d 2 * v 1), sq_nonneg (d 2 * v 0 - d 0 * v 2)])
  have z2 : d 1 * v 2 - d 2 * v 1 = 0 := pow_eq_zero_iff (two_ne_zero) |>.mp (by
    nlinarith [sq_nonneg (d 0 * v 1 - d 1 * v 0), sq_nonneg (d 1 * v 2 - d 2 * v 1), sq_nonneg (d 2 * v 0 - d 0 * v 2)])
  have z3 : d 2 * v 0 - d 0 * v 2 = 0 := pow_eq_zero_iff (two_ne_zero) |>.mp (by
    nlinarith [sq_nonneg (d 0 * v 1 - d 1 * v 0), sq_nonneg (d 1 * v 2 - d 2 * v 1), sq_nonneg (d 2 * v 0 - d 0 * v 2)])
  have hpos : 0 < dot d d := by rw [← hdd]; positivity
  have e0 : dot d d * v 0 = dot d v * d 0 := by unfold dot; linear_combination -d 1 * z1 + d 2 * z3
  have e1 : dot d d * v 1 = dot d v * d 1 := by unfold dot; linear_combination d 0 * z1 - d 2 * z2
  have e2 : dot d d * v 2 = dot d v * d 2 := by unfold dot; linear_combination d 1 * z2 - d 0 * z3
  have hk : v = (dot d v / dot d d) • d := by
    ext i
    fin_cases i
    · show v 0 = dot d v / dot d d * d 0
      field_simp
      linarith
    · show v 1 = dot d v / dot d d * d 1
      field_simp
      linarith
    · show v 2 = dot d v / dot d d * d 2
      field_simp
      linarith
  refine ⟨_, fun h0 => ?_, hk⟩
  rw [h0, zero_smul] at hk
  rw [hk] at h1
  simp [dot] at h1

theorem sum_line (ts : List ℝ) (c d : Vec3) :
    (ts.map fun t => c + t • d).sum = (ts.length : ℝ) • c + ts.sum • d := by
  induction ts with
  | nil => simp
  | cons t ts ih =>
    simp only [List.map_cons, List.sum_cons, ih, List.length_cons, Nat.cast_add, Nat.cast_one, add_smul, one_smul]
    abel

theorem centre_line (ts : List ℝ) (hne : ts ≠ []) (c d : Vec3) :
    centre (ts.map fun t => c + t • d) = c + (ts.sum / ts.length) • d := by
  have hl : (ts.length : ℝ) ≠ 0 := Nat.cast_ne_zero.mpr (by rw [Ne, List.length_eq_zero_iff]; exact hne)
  unfold centre
  rw [sum_line, List.length_map, smul_add, smul_smul, inv_mul_cancel₀ hl, one_smul, smul_smul]
  congr 2
  ring

theorem orient_smul (v : Vec3) (h : v ≠ 0) : ∃ k : ℝ, k ≠ 0 ∧ orient v = k • v := by
  have hl : len v ≠ 0 := fun h0 => h (by
    obtain ⟨a, b, c⟩ := (len_eq_zero v).mp h0
    ext i; fin_cases i <;> assumption)
  unfold orient
  dsimp only
  split
  · exact ⟨-(len v)⁻¹, neg_ne_zero.mpr (inv_ne_zero hl), by rw [neg_smul]; rfl⟩
  · exact ⟨(len v)⁻¹, inv_ne_zero hl, rfl⟩

/-- Positions on a line: the fitted line is the line. -/
theorem lineFit_line (svd : List Vec3 → Vec3) (hsvd : ∀ rows, IsFirstSingular rows (svd rows)) (ts : List ℝ) (c d : Vec3) (s t : ℝ)
    (hs : s ∈ ts) (ht : t ∈ ts) (hst : s ≠ t) (hd : d ≠ 0) :
    ∃ k l : ℝ, k ≠ 0 ∧ lineFit svd (ts.map fun t => c + t • d) = (c + l • d, k • d) := by
  have hne : ts ≠ [] := fun h => by rw [h] at hs; cases hs
  set m := ts.sum / ts.length with hm
  have hrows : ((ts.map fun t => c + t • d).map fun p => p - (c + m • d)) = (ts.map fun t => t - m).map fun u => u • d := by
    rw [List.map_map, List.map_map]
    refine List.map_congr_left fun t _ => ?_
    simp only [Function.comp_apply, sub_smul]
    abel
  have hu : ∃ u ∈ ts.map fun t => t - m, u ≠ 0 := by
    by_cases h : s = m
    · exact ⟨t - m, List.mem_map_of_mem ht, fun h0 => hst (by linarith)⟩
    · exact ⟨s - m, List.mem_map_of_mem hs, fun h0 => h (by linarith)⟩
  obtain ⟨u, hu, hu0⟩ := hu
  have hsing := hsvd ((ts.map fun t => t - m).map fun u => u • d)
  obtain ⟨k, hk, e⟩ := singular_parallel _ u hu hu0 d _ hd hsing
  obtain ⟨k', hk', e'⟩ := orient_smul (k • d) (smul_ne_zero hk hd)
  refine ⟨k' * k, m, mul_ne_zero hk' hk, ?_⟩
  unfold lineFit
  rw [centre_line ts hne, ← hm, hrows, e, e', smul_smul]

theorem positions_spec (duts : List Alignment) : ∀ (sel : List Nat) (ps : List Vec3), positions duts sel = some ps →
    ps.length = sel.length ∧ ∀ (k i : Nat) (p : Vec3), sel[k]? = some i → ps[k]? = some p → ∃ a, duts[i]? = some a ∧ p = pos a
  | [], ps, h => by
    simp only [positions, Option.some.injEq] at h
    subst h
    exact ⟨rfl, fun k i p h => by simp at h⟩
  | i :: is, ps, h => by
    simp only [positions] at h
    split at h
    · rename_i a qs ha hq
      injection h with h
      subst h
      obtain ⟨h1, h2⟩ := positions_spec duts is qs hq
      refine ⟨by simp [h1], fun k j p hj hp => ?_⟩
      cases k with
      | zero =>
        simp only [List.getElem?_cons_zero, Option.some.injEq] at hj hp
        subst hj hp
        exact ⟨a, ha, rfl⟩
      | succ k =>
        simp only [List.getElem?_cons_succ] at hj hp
        exact h2 k j p hj hp
    · cases h

theorem positions_some (duts : List Alignment) : ∀ (sel : List Nat), (∀ i ∈ sel, ∃ a, duts[i]? = some a) →
    ∃ ps, positions duts sel = some ps
  | [], _ => ⟨[], rfl⟩
  | i :: is, h => by
    obtain ⟨a, ha⟩ := h i List.mem_cons_self
    obtain ⟨ps, hp⟩ := positions_some duts is fun j hj => h j (List.mem_cons_of_mem _ hj)
    exact ⟨pos a :: ps, by simp only [positions, ha, hp]⟩

theorem positions_none (duts : List Alignment) (sel : List Nat) : positions duts sel = none ↔ ∃ i ∈ sel, duts[i]? = none := by
  constructor
  · intro h
    by_contra hc
    push Not at hc
    obtain ⟨ps, hp⟩ := positions_some duts sel fun i hi => by
      cases hd : duts[i]? with
      | none => exact absurd hd (hc i hi)
      | some a => exact ⟨a, rfl⟩
    rw [h] at hp
    cases hp
  · rintro ⟨i, hi, hd⟩
    cases hp : positions duts sel with
    | none => rfl
    | some ps =>
      exfalso
      obtain ⟨h1, h2⟩ := positions_spec duts sel ps hp
      obtain ⟨k, hk, e⟩ := List.mem_iff_getElem.mp hi
      obtain ⟨a, ha, -⟩ := h2 k i (ps[k]'(by omega)) (by rw [List.getElem?_eq_getElem hk, e]) (List.getElem?_eq_getElem _)
      rw [hd] at ha
      cases ha

/-- The intersection of a line with a DUT. -/
theorem crossing_ok (line : Vec3 × Vec3) (a : Alignment) (p : Vec3) : crossing line a = .ok p ↔
    dot (dutNormal a.alpha a.beta a.gamma) line.2 ≠ 0 ∧ OnLine line.1 line.2 p ∧ OnPlane (pos a) (dutNormal a.alpha a.beta a.gamma) p := by
  unfold crossing intersectDut
  set n := dutNormal a.alpha a.beta a.gamma
  cases h : intersectPlane [line] ![a.x, a.y, a.z] n with
  | none =>
    have := (BTA.Props.C33_raises_iff _ _ _).mp h
    obtain ⟨l, hl, h0⟩ := this
    rw [List.mem_singleton] at hl
    subst hl
    constructor
    · intro h; cases h
    · intro h; exact absurd h0 h.1
  | some out =>
    have h0 : dot n line.2 ≠ 0 := fun h0 => by
      rw [(BTA.Props.C33_raises_iff _ _ _).mpr ⟨line, List.mem_singleton.mpr rfl, h0⟩] at h
      cases h
    obtain ⟨hl, hi⟩ := BTA.Props.C33_intersection _ _ _ _ h
    rw [List.length_singleton] at hl
    obtain ⟨q, rfl⟩ := List.length_eq_one_iff.mp hl
    obtain ⟨h1, h2, h3⟩ := hi 0 line q rfl rfl
    dsimp only
    constructor
    · intro e
      injection e with e
      subst e
      exact ⟨h0, h1, h2⟩
    · rintro ⟨-, e1, e2⟩
      rw [h3 p e1 e2]

theorem crossing_error (line : Vec3 × Vec3) (a : Alignment) (e : Err) : crossing line a = .error e ↔
    e = .parallel ∧ dot (dutNormal a.alpha a.beta a.gamma) line.2 = 0 := by
  unfold crossing intersectDut
  set n := dutNormal a.alpha a.beta a.gamma
  cases h : intersectPlane [line] ![a.x, a.y, a.z] n with
  | none =>
    obtain ⟨l, hl, h0⟩ := (BTA.Props.C33_raises_iff _ _ _).mp h
    rw [List.mem_singleton] at hl
    subst hl
    constructor
    · intro h; injection h with h; exact ⟨h.symm, h0⟩
    · intro h; rw [h.1]
  | some out =>
    have h0 : dot n line.2 ≠ 0 := fun h0 => by
      rw [(BTA.Props.C33_raises_iff _ _ _).mpr ⟨line, List.mem_singleton.mpr rfl, h0⟩] at h
      cases h
    obtain ⟨hl, hi⟩ := BTA.Props.C33_intersection _ _ _ _ h
    rw [List.length_singleton] at hl
    obtain ⟨q, rfl⟩ := List.length_eq_one_iff.mp hl
    dsimp only
    constructor
    · intro e; cases e
    · intro e; exact absurd e.2 h0

/-- The position of the DUT is on its plane. -/
theorem onPlane_pos (a : Alignment) (n : Vec3) : OnPlane (pos a) n (pos a) := by
  unfold OnPlane
  simp [dot]

/-- The result of the loop. -/
theorem moveLoop_ok (line : Vec3 × Vec3) (first : Vec3) : ∀ (duts duts' : List Alignment), moveLoop line first duts = .ok duts' →
    duts'.length = duts.length ∧ ∀ (i : Nat) (a a' : Alignment), duts[i]? = some a → duts'[i]? = some a' →
      ∃ p, crossing line a = .ok p ∧ a' = { a with x := a.x - (p 0 - first 0), y := a.y - (p 1 - first 1) }
  | [], duts', h => by
    simp only [moveLoop] at h
    injection h with h
    subst h
    exact ⟨rfl, fun i a a' h => by simp at h⟩
  | b :: bs, duts', h => by
    simp only [moveLoop] at h
    split at h
    · cases h
    · rename_i p hp
      split at h
      · cases h
      · rename_i bs' hbs
        injection h with h
        subst h
        obtain ⟨h1, h2⟩ := moveLoop_ok line first bs bs' hbs
        refine ⟨by simp [h1], fun i a a' ha ha' => ?_⟩
        cases i with
        | zero =>
          simp only [List.getElem?_cons_zero, Option.some.injEq] at ha ha'
          subst ha ha'
          exact ⟨p, hp, rfl⟩
        | succ i =>
          simp only [List.getElem?_cons_succ] at ha ha'
          exact h2 i a a' ha ha'

theorem moveLoop_error (line : Vec3 × Vec3) (first : Vec3) (e : Err) : ∀ duts : List Alignment, moveLoop line first duts = .error e ↔
    e = .parallel ∧ ∃ a ∈ duts, dot (dutNormal a.alpha a.beta a.gamma) line.2 = 0
  | [] => by simp [moveLoop]
  | b :: bs => by
    simp only [moveLoop, List.mem_cons, exists_eq_or_imp]
    split
    · rename_i e' he
      obtain ⟨h1, h2⟩ := (crossing_error line b e').mp he
      subst h1
      simp only [Except.error.injEq]
      constructor
      · rintro rfl; exact ⟨rfl, .inl h2⟩
      · rintro ⟨rfl, -⟩; rfl
    · rename_i p hp
      have h0 := ((crossing_ok line b p).mp hp).1
      have ih := moveLoop_error line first e bs
      split
      · rename_i e' he
        rw [he] at ih
        rw [ih]
        exact ⟨fun h => ⟨h.1, .inr h.2⟩, fun h => ⟨h.1, h.2.resolve_left h0⟩⟩
      · rename_i bs' hb
        rw [hb] at ih
        exact ⟨fun h => (by cases h), fun h => (by cases ih.mpr ⟨h.1, h.2.resolve_left h0⟩)⟩

/-- What a successful run of `align_telescope` did. -/
theorem alignTelescope_ok (svd : List Vec3 → Vec3) (tel tel' : Tel) (sel : List Nat) (ref : Option Nat)
    (h : alignTelescope svd tel sel ref = .ok tel') : ∃ ps f I, positions tel.duts sel = some ps ∧ ps ≠ [] ∧
      tel.duts[referenceDut ref sel ps]? = some f ∧ crossing (lineFit svd ps) f = .ok I ∧
      moveLoop (lineFit svd ps) (I - pos f) tel.duts = .ok tel'.duts ∧
      (trackAngles (lineFit svd ps).2).alpha = some (tel.alpha - tel'.alpha) ∧
      (trackAngles (lineFit svd ps).2).beta = some (tel.beta - tel'.beta) := by
  unfold alignTelescope at h
  split at h
  · cases h
  · cases h
  · rename_i p ps hp
    unfold moveTel at h
    split at h
    · cases h
    · rename_i f hf
      split at h
      · cases h
      · rename_i I hI
        split at h
        · cases h
        · rename_i duts hm
          unfold rotateTel at h
          split at h
          · rename_i a b ha hb
            injection h with h
            subst h
            refine ⟨p :: ps, f, I, hp, by simp, hf, hI, hm, ?_, ?_⟩
            · rw [ha]; simp
            · rw [hb]; simp
          · cases h

theorem referenceDut_none (sel : List Nat) (ps : List Vec3) (hne : ps ≠ []) (hl : ps.length = sel.length) :
    ∃ (k : Nat) (p : Vec3), sel[k]? = some (referenceDut none sel ps) ∧ ps[k]? = some p ∧ ∀ q ∈ ps, p 2 ≤ q 2 := by
  have hz : (ps.map fun p => p 2) ≠ [] := by simpa using hne
  obtain ⟨h1, h2, -⟩ := Prealign.argmin_spec (ps.map fun p => p 2) hz
  set k := Prealign.argmin (ps.map fun p => p 2) with hk
  rw [List.length_map] at h1
  refine ⟨k, ps[k], ?_, List.getElem?_eq_getElem h1, fun q hq => ?_⟩
  · unfold referenceDut
    dsimp only
    rw [← hk, List.getElem?_eq_getElem (by omega), List.getD_eq_getElem?_getD, List.getElem?_eq_getElem (by omega), Option.getD_some]
  · obtain ⟨j, hj, rfl⟩ := List.mem_iff_getElem.mp hq
    have := h2 j (by simpa using hj)
    simpa using this

/-- Selected DUTs on a line: the fitted line is the line. -/
theorem fit_onOneLine (svd : List Vec3 → Vec3) (hsvd : ∀ rows, IsFirstSingular rows (svd rows)) (duts : List Alignment) (sel : List Nat)
    (ps : List Vec3) (c d : Vec3) (hp : positions duts sel = some ps) (h : OnOneLine duts sel c d) :
    ∃ k l : ℝ, k ≠ 0 ∧ lineFit svd ps = (c + l • d, k • d) := by
  obtain ⟨h1, h2⟩ := positions_spec duts sel ps hp
  obtain ⟨h3, i, hi, j, hj, p, q, hpi, hqj, hpq⟩ := h
  have hat : ∀ (i : Nat) (p : Vec3) (a : Alignment), At duts i p → duts[i]? = some a → p = pos a := by
    rintro i p a ⟨b, hb, hx, hy, hz⟩ ha
    rw [ha] at hb
    injection hb with hb
    subst hb
    ext t
    fin_cases t
    · exact hx.symm
    · exact hy.symm
    · exact hz.symm
  have hon : ∀ p ∈ ps, ∃ t : ℝ, p = c + t • d := by
    intro p hp
    obtain ⟨k, hk, e⟩ := List.mem_iff_getElem.mp hp
    obtain ⟨a, ha, hpa⟩ := h2 k (sel[k]'(by omega)) p (List.getElem?_eq_getElem _) (by rw [List.getElem?_eq_getElem hk, e])
    obtain ⟨p', hp', hl⟩ := h3 _ (List.getElem_mem (by omega : k < sel.length))
    rw [hat _ _ _ hp' ha, ← hpa] at hl
    exact hl
  have hex : ∀ l : List Vec3, (∀ p ∈ l, ∃ t : ℝ, p = c + t • d) → ∃ ts : List ℝ, l = ts.map fun t => c + t • d := by
    intro l
    induction l with
    | nil => exact fun _ => ⟨[], rfl⟩
    | cons p l ih =>
      intro h
      obtain ⟨t, ht⟩ := h p List.mem_cons_self
      obtain ⟨ts, hts⟩ := ih fun q hq => h q (List.mem_cons_of_mem _ hq)
      exact ⟨t :: ts, by rw [List.map_cons, ← ht, ← hts]⟩
  obtain ⟨ts, hts⟩ := hex ps hon
  have hmem : ∀ i ∈ sel, ∀ p, At duts i p → p ∈ ps := by
    intro i hi p hp
    obtain ⟨k, hk, e⟩ := List.mem_iff_getElem.mp hi
    obtain ⟨a, ha, hpa⟩ := h2 k i (ps[k]'(by omega)) (by rw [List.getElem?_eq_getElem hk, e]) (List.getElem?_eq_getElem _)
    rw [hat i p a hp ha, ← hpa]
    exact List.getElem_mem _
  have m1 := hmem i hi p hpi
  have m2 := hmem j hj q hqj
  rw [hts] at m1 m2
  obtain ⟨s, hs, rfl⟩ := List.mem_map.mp m1
  obtain ⟨t, ht, rfl⟩ := List.mem_map.mp m2
  have hst : s ≠ t := fun h => hpq (by rw [h])
  have hd : d ≠ 0 := fun h => hpq (by rw [h, smul_zero, smul_zero])
  rw [hts]
  exact lineFit_line svd hsvd ts c d s t hs ht hst hd

end BTA.AlignTel
