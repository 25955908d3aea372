import Verif.Model.Ransac
import Verif.Spec.Ransac
/-
C206: the robust search for a line.
-/
namespace BTA.Ransac.Props
open BTA.Ransac BTA.Ransac.Spec

theorem epsilon_pos : 0 < epsilon := by unfold epsilon; positivity

/-- C206: `find_intercept_point` gives the point of the line that is the nearest to the given point. -/
theorem C206_foot (m c x0 y0 : ℝ) : (interceptPoint m c x0 y0).2 = m * (interceptPoint m c x0 y0).1 + c ∧
    ∀ x, ((interceptPoint m c x0 y0).1 - x0) ^ 2 + ((interceptPoint m c x0 y0).2 - y0) ^ 2 ≤ (x - x0) ^ 2 + (m * x + c - y0) ^ 2 := by
  have h : (1 : ℝ) + m ^ 2 ≠ 0 := by positivity
  have h1 : (interceptPoint m c x0 y0).2 = m * (interceptPoint m c x0 y0).1 + c := by
    unfold interceptPoint
    field_simp
  refine ⟨h1, fun x => ?_⟩
  rw [h1]
  have h2 : (interceptPoint m c x0 y0).1 * (1 + m ^ 2) = x0 + m * y0 - m * c := by
    unfold interceptPoint
    field_simp
  set u := (interceptPoint m c x0 y0).1
  have e : (x - x0) ^ 2 + (m * x + c - y0) ^ 2 - ((u - x0) ^ 2 + (m * u + c - y0) ^ 2) = (1 + m ^ 2) * (x - u) ^ 2 := by
    linear_combination 2 * (x - u) * h2
  have : 0 ≤ (1 + m ^ 2) * (x - u) ^ 2 := by positivity
  linarith

theorem distance_spec (m c : ℝ) (p : Point) : IsDistance m c p.1 p.2 (distance m c p) := by
  obtain ⟨h1, h2⟩ := C206_foot m c p.1 p.2
  refine ⟨⟨(interceptPoint m c p.1 p.2).1, ?_⟩, fun x => ?_⟩
  · unfold distance
    simp only
    rw [h1]
  · exact Real.sqrt_le_sqrt (h2 x)

theorem isDistance_unique (m c x0 y0 d e : ℝ) (hd : IsDistance m c x0 y0 d) (he : IsDistance m c x0 y0 e) : d = e := by
  obtain ⟨x, hx⟩ := hd.1
  obtain ⟨y, hy⟩ := he.1
  exact le_antisymm (hy ▸ hd.2 y) (hx ▸ he.2 x)

theorem near_iff (m c threshold : ℝ) (p : Point) : (∃ d, IsDistance m c p.1 p.2 d ∧ d < threshold) ↔ distance m c p < threshold :=
  ⟨fun ⟨_, h, hd⟩ => isDistance_unique _ _ _ _ _ _ h (distance_spec m c p) ▸ hd, fun h => ⟨_, distance_spec m c p, h⟩⟩

/-- C206: the line of two points goes through the second one; the first one is missed (vertically) by a part `epsilon / (dx + epsilon)` of the difference. -/
theorem C206_line (p q : Point) (h : q.1 - p.1 + epsilon ≠ 0) : ∃ m c, lineModel p q = some (m, c) ∧ IsLine epsilon p q m c ∧
    m * p.1 + c - p.2 = (q.2 - p.2) * (epsilon / (q.1 - p.1 + epsilon)) := by
  refine ⟨_, _, if_neg h, ⟨by ring, by field_simp⟩, ?_⟩
  field_simp
  ring

theorem try_of (threshold : ℝ) (p q : Point) (rest : List Point) (m c : ℝ) (h : lineModel p q = some (m, c)) :
    IsTry epsilon threshold (p :: q :: rest) m c (inliers (some (m, c)) threshold rest) := by
  have h0 : q.1 - p.1 + epsilon ≠ 0 := by
    intro h0
    unfold lineModel at h
    rw [if_pos h0] at h
    cases h
  obtain ⟨m', c', h1, h2, -⟩ := C206_line p q h0
  rw [h1] at h
  obtain ⟨rfl, rfl⟩ := Prod.mk.inj (Option.some.inj h)
  refine ⟨⟨p, q, rest, rfl, h0, h2⟩, open Classical in fun p => decide (distance m' c' p < threshold), fun r => ?_, rfl⟩
  rw [near_iff, decide_eq_true_eq]

/-- A try has only one result. -/
theorem isTry_unique (threshold : ℝ) (order : List Point) (m c m' c' : ℝ) (f f' : List Point) (h : IsTry epsilon threshold order m c f)
    (h' : IsTry epsilon threshold order m' c' f') : m = m' ∧ c = c' ∧ f = f' := by
  obtain ⟨p, q, rest, e, h0, h1, h2⟩ := h.line
  obtain ⟨p', q', rest', e', h0', h1', h2'⟩ := h'.line
  rw [e] at e'
  cases e'
  have em : m = m' := mul_right_cancel₀ h0 (h2.trans h2'.symm)
  subst em
  have ec : c = c' := by linarith
  subst ec
  obtain ⟨n, hn, rfl⟩ := h.found
  obtain ⟨n', hn', rfl⟩ := h'.found
  have : n = n' := by
    funext r
    rw [Bool.eq_iff_iff, hn, hn']
  rw [this]
  exact ⟨rfl, rfl, rfl⟩

/-- The points in the order of a permutation. -/
def ordered (data : List Point) (perm : List Nat) : List Point := perm.filterMap fun i => data[i]?

/-- The number of points that are found in a try; zero if the line is vertical. -/
noncomputable def tryCount (threshold : ℝ) (order : List Point) : Nat :=
  match order with
  | p :: q :: rest => (inliers (lineModel p q) threshold rest).length
  | _ => 0

/-- What is known after the tries `done`. -/
structure Inv (data : List Point) (threshold : ℝ) (done : List (List Nat)) (b : Best) : Prop where
  nonneg : 0 ≤ b.ratio
  best : ∀ perm ∈ done, (tryCount threshold (ordered data perm) : ℝ) / data.length ≤ b.ratio
  start : b.ratio = 0 → b.xs = none ∧ b.ys = none
  found : 0 < b.ratio → ∃ perm ∈ done, ∃ found, IsTry epsilon threshold (ordered data perm) b.m b.c found ∧ found ≠ [] ∧ b.ratio = (found.length : ℝ) / data.length ∧
    b.xs = some (found.map Prod.fst) ∧ b.ys = some (found.map Prod.snd)

theorem inv_step (data : List Point) (threshold : ℝ) (done : List (List Nat)) (b : Best) (h : Inv data threshold done b) (perm : List Nat) (p q : Point)
    (rest : List Point) (ho : ordered data perm = p :: q :: rest) :
    Inv data threshold (done ++ [perm]) (keep data.length (lineModel p q) (inliers (lineModel p q) threshold rest) b) := by
  have hcount : tryCount threshold (ordered data perm) = (inliers (lineModel p q) threshold rest).length := by rw [ho]; rfl
  unfold keep
  split
  · rename_i hlt
    have hpos : 0 < ((inliers (lineModel p q) threshold rest).length : ℝ) / data.length := lt_of_le_of_lt h.nonneg hlt
    refine ⟨hpos.le, fun s hs => ?_, fun h0 => absurd h0 hpos.ne', fun _ => ?_⟩
    · rcases List.mem_append.mp hs with hs | hs
      · exact (h.best s hs).trans hlt.le
      · rw [List.mem_singleton.mp hs, hcount]
    · have hne : inliers (lineModel p q) threshold rest ≠ [] := by
        intro h0
        rw [h0] at hpos
        simp at hpos
      cases hm : lineModel p q with
      | none => rw [hm] at hne; exact absurd rfl hne
      | some mc =>
        obtain ⟨m, c⟩ := mc
        rw [hm] at hne
        exact ⟨perm, List.mem_append_right _ (List.mem_singleton.mpr rfl), _, ho ▸ try_of threshold p q rest m c hm, hne, rfl, rfl, rfl⟩
  · rename_i hlt
    refine ⟨h.nonneg, fun s hs => ?_, h.start, fun h0 => ?_⟩
    · rcases List.mem_append.mp hs with hs | hs
      · exact h.best s hs
      · rw [List.mem_singleton.mp hs, hcount]
        exact not_lt.mp hlt
    · obtain ⟨s, hs, r⟩ := h.found h0
      exact ⟨s, List.mem_append_left _ hs, r⟩

theorem loop_inv (data : List Point) (threshold ratio : ℝ) (perms done : List (List Nat)) (b b' : Best) (h : Inv data threshold done b)
    (hr : loop data threshold ratio perms b = .ok b') : ∃ more rest, perms = more ++ rest ∧ Inv data threshold (done ++ more) b' ∧
      (rest = [] ∨ ∃ last, more.getLast? = some last ∧ data.length * ratio < (tryCount threshold (ordered data last) : ℝ)) ∧
      (∀ s ∈ more.dropLast, (tryCount threshold (ordered data s) : ℝ) ≤ data.length * ratio) := by
  induction perms generalizing done b with
  | nil =>
    cases Except.ok.inj hr
    exact ⟨[], [], rfl, by simpa using h, Or.inl rfl, fun s hs => nomatch hs⟩
  | cons perm perms ih =>
    unfold loop at hr
    split at hr
    · rename_i p q test ho
      have ho : ordered data perm = p :: q :: test := ho
      have hcount : tryCount threshold (ordered data perm) = (inliers (lineModel p q) threshold test).length := by rw [ho]; rfl
      have hi := inv_step data threshold done b h perm p q test ho
      simp only at hr
      split at hr
      · rename_i hgt
        cases Except.ok.inj hr
        exact ⟨[perm], perms, rfl, hi, Or.inr ⟨perm, rfl, by rw [hcount]; exact hgt⟩, fun s hs => nomatch hs⟩
      · rename_i hgt
        obtain ⟨more, rest, e, h1, h2, h3⟩ := ih _ _ hi hr
        refine ⟨perm :: more, rest, by rw [e]; rfl, by rw [List.append_assoc] at h1; exact h1, ?_, fun s hs => ?_⟩
        · rcases h2 with h2 | ⟨last, hl, hc⟩
          · exact Or.inl h2
          · right
            refine ⟨last, ?_, hc⟩
            rw [List.getLast?_cons, hl]
            rfl
        · cases more with
          | nil => cases hs
          | cons a l =>
            rcases List.mem_cons.mp hs with e | hs
            · rw [e, hcount]; exact not_lt.mp hgt
            · exact h3 s hs
    · cases hr

theorem tryCount_try (threshold : ℝ) (order : List Point) (m c : ℝ) (f : List Point) (h : IsTry epsilon threshold order m c f) : tryCount threshold order = f.length := by
  obtain ⟨p, q, rest, e, h0, -⟩ := h.line
  obtain ⟨m', c', h1, -⟩ := C206_line p q h0
  have := isTry_unique threshold order m c m' c' f _ h (e ▸ try_of threshold p q rest m' c' h1)
  rw [e, this.2.2]
  unfold tryCount
  simp only [h1]

theorem try_tryCount (threshold : ℝ) (order : List Point) (h : 0 < tryCount threshold order) : ∃ m c f, IsTry epsilon threshold order m c f ∧ f.length = tryCount threshold order := by
  unfold tryCount at h ⊢
  match order with
  | p :: q :: rest =>
    simp only at h ⊢
    cases hm : lineModel p q with
    | none => rw [hm] at h; exact absurd h (lt_irrefl 0)
    | some mc => exact ⟨mc.1, mc.2, _, try_of threshold p q rest mc.1 mc.2 hm, rfl⟩
  | [] => exact absurd h (lt_irrefl 0)
  | [_] => exact absurd h (lt_irrefl 0)

theorem inv_nil (data : List Point) (threshold : ℝ) : Inv data threshold [] ⟨0, 0, 0, none, none⟩ :=
  ⟨le_rfl, fun _ h => (nomatch h), fun _ => ⟨rfl, rfl⟩, fun h => absurd h (lt_irrefl 0)⟩

/-- C206: the result is the try with the most points found (the two points of the line are not counted), among all tries up to the first one with more than
`ratio` of all points. -/
theorem C206_best (data : List Point) (perms : List (List Nat)) (threshold ratio r m c : ℝ) (xs ys : List ℝ) (hratio : 0 ≤ ratio)
    (h : findRansac data perms threshold ratio = .ok (r, m, c, xs, ys)) :
    ∃ tries rest, perms = tries ++ rest ∧
      (rest = [] ∨ ∃ last, tries.getLast? = some last ∧ ∃ m' c' f, IsTry epsilon threshold (ordered data last) m' c' f ∧ data.length * ratio < (f.length : ℝ)) ∧
      (∀ s ∈ tries.dropLast, ∀ m' c' f, IsTry epsilon threshold (ordered data s) m' c' f → (f.length : ℝ) ≤ data.length * ratio) ∧
      ∃ perm ∈ tries, ∃ found, IsTry epsilon threshold (ordered data perm) m c found ∧ found ≠ [] ∧ r = (found.length : ℝ) / data.length ∧
        xs = found.map Prod.fst ∧ ys = found.map Prod.snd ∧ ∀ s ∈ tries, ∀ m' c' f, IsTry epsilon threshold (ordered data s) m' c' f → f.length ≤ found.length := by
  unfold findRansac at h
  split at h
  · cases h
  · rename_i b hb
    obtain ⟨more, rest, e, h1, h2, h3⟩ := loop_inv data threshold ratio perms [] _ b (inv_nil data threshold) hb
    rw [List.nil_append] at h1
    split at h
    · rename_i xs' ys' hx hy
      have h := Except.ok.inj h
      simp only [Prod.mk.injEq] at h
      obtain ⟨rfl, rfl, rfl, rfl, rfl⟩ := h
      refine ⟨more, rest, e, ?_, fun s hs m' c' f hf => ?_, ?_⟩
      · rcases h2 with h2 | ⟨last, hl, hc⟩
        · exact Or.inl h2
        · right
          have hpos : 0 < tryCount threshold (ordered data last) := by
            have : (0 : ℝ) < tryCount threshold (ordered data last) := lt_of_le_of_lt (by positivity) hc
            exact_mod_cast this
          obtain ⟨m', c', f, hf, hlen⟩ := try_tryCount _ _ hpos
          exact ⟨last, hl, m', c', f, hf, by rw [hlen]; exact hc⟩
      · rw [← tryCount_try threshold _ m' c' f hf]; exact h3 s hs
      · have hr : 0 < b.ratio := by
          rcases h1.nonneg.lt_or_eq with h | h
          · exact h
          · rw [(h1.start h.symm).1] at hx; cases hx
        obtain ⟨perm, hp, found, t1, t2, t3, t4, t5⟩ := h1.found hr
        rw [hx] at t4
        rw [hy] at t5
        refine ⟨perm, hp, found, t1, t2, t3, Option.some.inj t4, Option.some.inj t5, fun s hs m' c' f hf => ?_⟩
        have := h1.best s hs
        rw [t3, tryCount_try threshold _ m' c' f hf] at this
        have hn : (0 : ℝ) < data.length := by
          rw [t3] at hr
          by_contra h0
          have : (data.length : ℝ) = 0 := le_antisymm (not_lt.mp h0) (Nat.cast_nonneg _)
          rw [this, div_zero] at hr
          exact lt_irrefl _ hr
        have := (div_le_div_iff_of_pos_right hn).mp this
        exact_mod_cast this
    · cases h

/-- A permutation of the indices of the points. -/
def IsPerm (data : List Point) (perm : List Nat) : Prop := perm.Perm (List.range data.length)

theorem range_filterMap (data : List Point) : ((List.range data.length).filterMap fun i => data[i]?) = data := by
  induction data with
  | nil => rfl
  | cons a l ih =>
    rw [List.length_cons, List.range_succ_eq_map, List.filterMap_cons, List.filterMap_map]
    simp only [List.getElem?_cons_zero]
    congr 1

theorem ordered_perm (data : List Point) (perm : List Nat) (h : IsPerm data perm) : (ordered data perm).Perm data :=
  (h.filterMap _).trans (List.Perm.of_eq (range_filterMap data))

theorem loop_ok (data : List Point) (perms : List (List Nat)) (hperm : ∀ p ∈ perms, IsPerm data p) (threshold ratio : ℝ) (h2 : 2 ≤ data.length) (b : Best) :
    ∃ b', loop data threshold ratio perms b = .ok b' := by
  induction perms generalizing b with
  | nil => exact ⟨b, rfl⟩
  | cons perm perms ih =>
    have hlen := (ordered_perm data perm (hperm perm List.mem_cons_self)).length_eq
    unfold loop
    split
    · simp only
      split
      · exact ⟨_, rfl⟩
      · exact ih (fun p hp => hperm p (List.mem_cons_of_mem _ hp)) _
    · rename_i hno
      change (perm.filterMap fun i => data[i]?).length = _ at hlen
      match hl : perm.filterMap fun i => data[i]? with
      | p :: q :: l => exact absurd hl (hno p q l)
      | [] => rw [hl] at hlen; simp only [List.length_nil] at hlen; omega
      | [_] => rw [hl] at hlen; simp only [List.length_cons, List.length_nil] at hlen; omega

/-- C206: an error is raised if and only if there are less than two points (and an iteration), or if no try has found a point. -/
theorem C206_fails (data : List Point) (perms : List (List Nat)) (hperm : ∀ p ∈ perms, IsPerm data p) (threshold ratio : ℝ) (hratio : 0 ≤ ratio) :
    (findRansac data perms threshold ratio = .error .index ↔ data.length < 2 ∧ perms ≠ []) ∧
      (findRansac data perms threshold ratio = .error .unbound ↔ perms = [] ∨ (2 ≤ data.length ∧
        ∀ s ∈ perms, ∀ m c f, IsTry epsilon threshold (ordered data s) m c f → f = [])) := by
  cases perms with
  | nil =>
    have e : findRansac data [] threshold ratio = .error .unbound := rfl
    rw [e]
    exact ⟨⟨fun h => (nomatch h), fun h => absurd rfl h.2⟩, ⟨fun _ => Or.inl rfl, fun _ => rfl⟩⟩
  | cons perm perms =>
    by_cases h2 : 2 ≤ data.length
    · obtain ⟨b, hb⟩ := loop_ok data (perm :: perms) hperm threshold ratio h2 ⟨0, 0, 0, none, none⟩
      obtain ⟨more, rest, e, h1, hstop, -⟩ := loop_inv data threshold ratio _ [] _ b (inv_nil data threshold) hb
      rw [List.nil_append] at h1
      have hn : (0 : ℝ) < data.length := by have : 0 < data.length := by omega
                                            exact_mod_cast this
      have hr : findRansac data (perm :: perms) threshold ratio = (match b.xs, b.ys with
        | some xs, some ys => .ok (b.ratio, b.m, b.c, xs, ys)
        | _, _ => .error .unbound) := by
        unfold findRansac
        rw [hb]
        rfl
      rcases h1.nonneg.lt_or_eq with hpos | h0
      · obtain ⟨s, hs, f, t1, t2, t3, t4, t5⟩ := h1.found hpos
        rw [hr, t4, t5]
        refine ⟨⟨fun h => (nomatch h), fun h => (by omega)⟩, ⟨fun h => (nomatch h), fun h => ?_⟩⟩
        rcases h with h | ⟨-, h⟩
        · cases h
        · exact absurd (h s (by rw [e]; exact List.mem_append_left _ hs) _ _ f t1) t2
      · have h0 := h0.symm
        obtain ⟨hx, hy⟩ := h1.start h0
        rw [hr, hx, hy]
        refine ⟨⟨fun h => (nomatch h), fun h => (by omega)⟩, ⟨fun _ => Or.inr ⟨h2, fun s hs m c f hf => ?_⟩, fun _ => rfl⟩⟩
        have hall : ∀ s ∈ more, tryCount threshold (ordered data s) = 0 := by
          intro s hs
          have := h1.best s hs
          rw [h0] at this
          have h3 : (tryCount threshold (ordered data s) : ℝ) ≤ 0 := by
            by_contra hlt
            exact absurd this (not_le.mpr (div_pos (not_le.mp hlt) hn))
          exact_mod_cast le_antisymm h3 (Nat.cast_nonneg _)
        have hrest : rest = [] := by
          rcases hstop with h | ⟨last, hl, hc⟩
          · exact h
          · rw [hall last (List.mem_of_getLast? hl)] at hc
            have : (0 : ℝ) ≤ data.length * ratio := by positivity
            simp only [Nat.cast_zero] at hc
            linarith
        rw [hrest, List.append_nil] at e
        have := tryCount_try threshold _ m c f hf
        rw [hall s (e ▸ hs)] at this
        exact List.length_eq_zero_iff.mp this.symm
    · have e : findRansac data (perm :: perms) threshold ratio = .error .index := by
        have hlen := (ordered_perm data perm (hperm perm List.mem_cons_self)).length_eq
        change (perm.filterMap fun i => data[i]?).length = _ at hlen
        unfold findRansac loop
        match hl : perm.filterMap fun i => data[i]? with
        | p :: q :: l => rw [hl] at hlen; simp only [List.length_cons] at hlen; omega
        | [] => rfl
        | [_] => rfl
      rw [e]
      exact ⟨⟨fun _ => ⟨by omega, fun h => (nomatch h)⟩, fun _ => rfl⟩, ⟨fun h => (nomatch h), fun h => by
        rcases h with h | ⟨h, -⟩
        · cases h
        · omega⟩⟩

/-- C206: the ratio of the result is a part of all points and the two points of the line never count: it is at most `(n - 2) / n`, also if all points are on the line,
and two points never have a result. -/
theorem C206_ratio (data : List Point) (perms : List (List Nat)) (hperm : ∀ p ∈ perms, IsPerm data p) (threshold ratio r m c : ℝ) (xs ys : List ℝ) (hratio : 0 ≤ ratio)
    (h : findRansac data perms threshold ratio = .ok (r, m, c, xs, ys)) : 3 ≤ data.length ∧ 0 < r ∧ r ≤ (data.length - 2 : ℝ) / data.length ∧
      r * data.length = xs.length ∧ xs.length = ys.length := by
  obtain ⟨tries, rest, e, -, -, perm, hp, found, t1, t2, t3, t4, t5, -⟩ := C206_best data perms threshold ratio r m c xs ys hratio h
  have hlen := (ordered_perm data perm (hperm perm (by rw [e]; exact List.mem_append_left _ hp))).length_eq
  obtain ⟨near, -, hf⟩ := t1.found
  have h1 : found.length ≤ data.length - 2 := by
    rw [hf, ← hlen, ← List.length_drop]
    exact List.length_filter_le _ _
  have h2 := List.length_pos_iff.mpr t2
  have h3 : 3 ≤ data.length := by omega
  have hn : (0 : ℝ) < data.length := by have : 0 < data.length := by omega
                                        exact_mod_cast this
  have h4 : (found.length : ℝ) ≤ (data.length : ℝ) - 2 := by
    have : (found.length : ℝ) + 2 ≤ data.length := by exact_mod_cast (by omega : found.length + 2 ≤ data.length)
    linarith
  have h5 : (0 : ℝ) < found.length := by exact_mod_cast h2
  refine ⟨h3, by rw [t3]; positivity, by rw [t3]; exact (div_le_div_iff_of_pos_right hn).mpr h4, ?_, by rw [t4, t5]; simp⟩
  rw [t3, t4, List.length_map]
  field_simp

/-- The vertical distance is an upper bound of the distance. -/
theorem distance_le (m c : ℝ) (p : Point) (d : ℝ) (hd : IsDistance m c p.1 p.2 d) : d ≤ |m * p.1 + c - p.2| := by
  have := hd.2 p.1
  rwa [sub_self, zero_pow (by norm_num), zero_add, Real.sqrt_sq_eq_abs] at this

/-- A line through two of the points of a true line passes all of its other points. -/
theorem line_near (M K threshold δ L : ℝ) (p q u : Point) (m c : ℝ) (hl : IsLine epsilon p q m c) (hp : p.2 = M * p.1 + K) (hq : q.2 = M * q.1 + K) (hu : u.2 = M * u.1 + K)
    (hδ : δ ≤ |q.1 - p.1|) (hδ0 : epsilon < δ) (hL : |u.1 - q.1| ≤ L) (ht : |M| * epsilon * L / (δ - epsilon) < threshold) :
    ∃ d, IsDistance m c u.1 u.2 d ∧ d < threshold := by
  obtain ⟨h1, h2⟩ := hl
  have he := epsilon_pos
  have hD : δ - epsilon ≤ |q.1 - p.1 + epsilon| := by
    have := abs_sub_abs_le_abs_sub (q.1 - p.1) (-epsilon)
    rw [abs_neg, abs_of_pos he, sub_neg_eq_add] at this
    linarith
  have hD0 : 0 < δ - epsilon := by linarith
  have hne : q.1 - p.1 + epsilon ≠ 0 := by
    intro h0
    rw [h0, abs_zero] at hD
    linarith
  refine ⟨distance m c u, distance_spec m c u, lt_of_le_of_lt (distance_le m c u _ (distance_spec m c u)) (lt_of_le_of_lt ?_ ht)⟩
  have hm : m - M = -(M * epsilon) / (q.1 - p.1 + epsilon) := by
    rw [eq_div_iff hne]
    linear_combination h2 + hq - hp
  have hv : m * u.1 + c - u.2 = (m - M) * (u.1 - q.1) := by linear_combination -hu - h1 + hq
  rw [hv, hm, abs_mul, abs_div, abs_neg, abs_mul, abs_of_pos he, div_mul_eq_mul_div]
  have hA : 0 ≤ |M| * epsilon := by positivity
  have hL0 : 0 ≤ L := (abs_nonneg _).trans hL
  gcongr

/-- C206: outliers do no harm. If some of the points are on a line, with distances (in x) of at least `δ` (more than the machine precision) and at most `L`, and an iteration
picks two of them, then the result has at least as many points as there are others on the line, or the search has ended before with enough points. -/
theorem C206_robust (data : List Point) (perms : List (List Nat)) (hperm : ∀ p ∈ perms, IsPerm data p) (threshold ratio r m c : ℝ) (xs ys : List ℝ) (hratio : 0 ≤ ratio)
    (h : findRansac data perms threshold ratio = .ok (r, m, c, xs, ys)) (M K δ L : ℝ) (hδ0 : epsilon < δ) (ht : |M| * epsilon * L / (δ - epsilon) < threshold)
    (on : Point → Bool) (hon : ∀ p, on p = true ↔ p.2 = M * p.1 + K)
    (hL : ∀ p ∈ data, ∀ q ∈ data, on p → on q → |p.1 - q.1| ≤ L) (perm : List Nat) (hmem : perm ∈ perms) (p q : Point) (rest : List Point)
    (hpick : ordered data perm = p :: q :: rest) (hp : on p) (hq : on q) (hδ : δ ≤ |q.1 - p.1|) :
    data.countP on ≤ xs.length + 2 ∨ data.length * ratio < (xs.length : ℝ) := by
  obtain ⟨tries, rest', e, hstop, -, perm', hp', found, t1, t2, t3, t4, t5, t6⟩ := C206_best data perms threshold ratio r m c xs ys hratio h
  have hxs : xs.length = found.length := by rw [t4, List.length_map]
  rw [hxs]
  by_cases hin : perm ∈ tries
  · left
    have hne : q.1 - p.1 + epsilon ≠ 0 := by
      intro h0
      have : q.1 - p.1 = -epsilon := by linarith
      rw [this, abs_neg, abs_of_pos epsilon_pos] at hδ
      linarith
    obtain ⟨m', c', hm, hl, -⟩ := C206_line p q hne
    have htry := try_of threshold p q rest m' c' hm
    have hle := t6 perm hin m' c' _ (hpick ▸ htry)
    obtain ⟨near, hnear, hf⟩ := htry.found
    rw [hf] at hle
    have hdp := ordered_perm data perm (hperm perm hmem)
    rw [hpick] at hdp
    have hsub : ∀ u ∈ rest, on u = true → near u = true := by
      intro u hu hon'
      rw [hnear]
      refine line_near M K threshold δ L p q u m' c' hl ((hon p).mp hp) ((hon q).mp hq) ((hon u).mp hon') hδ hδ0 ?_ ht
      exact hL u (hdp.mem_iff.mp (List.mem_cons_of_mem _ (List.mem_cons_of_mem _ hu))) q (hdp.mem_iff.mp (List.mem_cons_of_mem _ List.mem_cons_self)) hon' hq
    rw [← hdp.countP_eq, List.countP_cons, List.countP_cons, if_pos hp, if_pos hq]
    have : rest.countP on ≤ rest.countP near := List.countP_mono_left hsub
    rw [List.countP_eq_length_filter (p := near)] at this
    have hle : (rest.filter near).length ≤ found.length := hle
    omega
  · right
    rcases hstop with h0 | ⟨last, hl, m', c', f, hf, hlt⟩
    · rw [h0, List.append_nil] at e
      exact absurd (e ▸ hmem) hin
    · refine hlt.trans_le ?_
      exact_mod_cast t6 last (List.mem_of_getLast? hl) m' c' f hf

/-- Three points on a line and one far away. -/
noncomputable def exPoints : List Point := [(0, 0), (1, 0), (2, 0), (3, 100)]

theorem exRun : findRansac exPoints [[0, 1, 2, 3]] 1 (1 / 2) = .ok (1 / 4, 0, 0, [2], [0]) := by
  have hne : (1 : ℝ) - 0 + epsilon ≠ 0 := by have := epsilon_pos; intro h; linarith
  have hm : lineModel (0, 0) (1, 0) = some (0, 0) := by
    unfold lineModel
    rw [if_neg hne]
    simp
  have d1 : distance 0 0 (2, 0) < 1 := by unfold distance interceptPoint; norm_num
  have d2 : ¬ distance 0 0 (3, 100) < 1 := by
    unfold distance interceptPoint
    norm_num
  have hf : inliers (some (0, 0)) 1 [(2, 0), (3, 100)] = [(2, 0)] := by
    unfold inliers
    simp only [List.filter_cons, d1, d2, decide_true, decide_false, if_true, List.filter_nil, Bool.false_eq_true, if_false]
  have hl : loop exPoints 1 (1 / 2) [[0, 1, 2, 3]] ⟨0, 0, 0, none, none⟩ = .ok ⟨1 / 4, 0, 0, some [2], some [0]⟩ := by
    unfold loop
    simp only [exPoints, List.filterMap_cons, List.filterMap_nil, List.getElem?_cons_zero, List.getElem?_cons_succ, hm, hf]
    rw [if_neg (by norm_num)]
    unfold loop keep
    rw [if_pos (by norm_num)]
    norm_num
  unfold findRansac
  rw [hl]

/-- The hypotheses of C206 are met: the outlier is not found. -/
example : 3 ≤ exPoints.length ∧ exPoints.countP (fun p => (p.2 == 0 : Bool)) ≤ [(2 : ℝ)].length + 2 := by
  refine ⟨(C206_ratio exPoints [[0, 1, 2, 3]] (fun p hp => by rw [List.mem_singleton.mp hp]; exact List.Perm.refl _) 1 (1 / 2) _ _ _ _ _ (by norm_num) exRun).1, ?_⟩
  have := C206_robust exPoints [[0, 1, 2, 3]] (fun p hp => by rw [List.mem_singleton.mp hp]; exact List.Perm.refl _) 1 (1 / 2) _ _ _ _ _ (by norm_num) exRun 0 0 1 3
    (by unfold epsilon; norm_num) (by norm_num) (fun p => (p.2 == 0 : Bool)) (fun p => by simp)
    (fun p hp q hq _ _ => by
      have hx : ∀ p ∈ exPoints, 0 ≤ p.1 ∧ p.1 ≤ 3 := by
        intro p hp
        simp only [exPoints, List.mem_cons, List.not_mem_nil, or_false] at hp
        rcases hp with rfl | rfl | rfl | rfl <;> norm_num
      have h1 := hx p hp
      have h2 := hx q hq
      rw [abs_le]
      constructor <;> linarith) [0, 1, 2, 3] (by simp) (0, 0) (1, 0) [(2, 0), (3, 100)] rfl (by simp) (by simp) (by norm_num)
  refine this.resolve_right ?_
  simp only [exPoints, List.length_cons, List.length_nil]
  norm_num

end BTA.Ransac.Props
