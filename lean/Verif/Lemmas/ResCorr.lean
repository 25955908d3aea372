import Verif.Spec.ResCorr
import Verif.Lemmas.Correlate
import Mathlib.Algebra.Order.BigOperators.Ring.Finset
import Mathlib.Tactic
/-
Lemmas on the correlation of residuals.
-/
namespace BTA.ResCorr
open Spec

/-- The pairs of some rows. -/
def pairsOf (i : Nat) (ref : List ℝ) (res : List (List (Option ℝ))) : List (ℝ × ℝ) :=
  (List.zip ref res).filterMap fun p => match p.2[i]? with | some (some v) => some (p.1, v) | _ => none

theorem column_ok {i : Nat} {rows : List (List (Option ℝ))} (h : ∀ r ∈ rows, i < r.length) :
    ∃ cs, column i rows = .ok cs ∧ cs.length = rows.length ∧
      ∀ ref : List ℝ, (List.zip ref cs).filterMap (fun p => p.2.map fun v => (p.1, v)) = pairsOf i ref rows := by
  induction rows with
  | nil => exact ⟨[], rfl, rfl, fun ref => by simp [pairsOf]⟩
  | cons r rs ih =>
    obtain ⟨cs, h1, h2, h3⟩ := ih fun q hq => h q (List.mem_cons_of_mem _ hq)
    have hr := h r (by simp)
    refine ⟨r[i] :: cs, ?_, by simp [h2], fun ref => ?_⟩
    · simp only [column, List.getElem?_eq_getElem hr, h1]
    · cases ref with
      | nil => simp [pairsOf]
      | cons a ref =>
        have := h3 ref
        unfold pairsOf at this ⊢
        rw [List.zip_cons_cons, List.zip_cons_cons, List.filterMap_cons, List.filterMap_cons, this, List.getElem?_eq_getElem hr]
        cases r[i] <;> rfl

theorem pairsOf_append (i : Nat) (a b : List ℝ) (c d : List (List (Option ℝ))) (h : a.length = c.length) :
    pairsOf i (a ++ b) (c ++ d) = pairsOf i a c ++ pairsOf i b d := by
  unfold pairsOf
  rw [List.zip_append h, List.filterMap_append]

theorem chunkPairs_eq {nd : Node} {i : Nat} (h1 : nd.res.length = nd.ref.length) (h2 : ∀ r ∈ nd.res, i < r.length) (s cs : Nat) :
    chunkPairs nd i s cs = .ok (pairsOf i ((nd.ref.drop s).take cs) ((nd.res.drop s).take cs)) := by
  obtain ⟨c, e1, e2, e3⟩ := column_ok (i := i) (rows := (nd.res.drop s).take cs)
    fun r hr => h2 r (List.mem_of_mem_drop (List.mem_of_mem_take hr))
  unfold chunkPairs
  rw [e1]
  dsimp only
  rw [if_neg, e3]
  rw [e2]
  simp [h1]

/-- All chunks from one on. -/
theorem readPairs_eq {nd : Node} {i : Nat} (h1 : nd.res.length = nd.ref.length) (h2 : ∀ r ∈ nd.res, i < r.length) {cs : Nat} (hcs : 0 < cs) (k : Nat) :
    ∀ (s : Nat) (acc : Option (List (ℝ × ℝ))), readPairs nd i cs ((List.range' s k).map fun j => j * cs) acc =
      .ok (if k = 0 then acc else some (acc.getD [] ++ pairsOf i ((nd.ref.drop (s * cs)).take (k * cs)) ((nd.res.drop (s * cs)).take (k * cs)))) := by
  induction k with
  | zero => intro s acc; simp [readPairs]
  | succ k ih =>
    intro s acc
    rw [List.range'_succ, List.map_cons, readPairs, chunkPairs_eq h1 h2]
    dsimp only
    rw [ih]
    have hd : (s + 1) * cs = s * cs + cs := by ring
    have ht : (k + 1) * cs = cs + k * cs := by ring
    have split : ∀ {α : Type} (l : List α), (l.drop (s * cs)).take ((k + 1) * cs) = (l.drop (s * cs)).take cs ++ (l.drop ((s + 1) * cs)).take (k * cs) := by
      intro α l
      rw [ht, List.take_add, List.drop_drop, hd]
    rw [split, split, pairsOf_append _ _ _ _ _ (by simp [h1]), if_neg (Nat.succ_ne_zero k)]
    by_cases hk : k = 0
    · subst hk
      simp [pairsOf]
    · rw [if_neg hk]
      simp [List.append_assoc]

theorem readPairs_all {nd : Node} {i : Nat} (h1 : nd.res.length = nd.ref.length) (h2 : ∀ r ∈ nd.res, i < r.length) {cs : Nat} (hcs : 0 < cs) :
    readPairs nd i cs (starts nd.ref.length cs) none = .ok (if nd.ref.length = 0 then none else some (pairs nd i)) := by
  unfold starts
  rw [List.range_eq_range', readPairs_eq h1 h2 hcs]
  have hle : nd.ref.length ≤ (nd.ref.length + cs - 1) / cs * cs := by
    have := Nat.div_add_mod (nd.ref.length + cs - 1) cs
    have hm := Nat.mod_lt (nd.ref.length + cs - 1) hcs
    rw [Nat.mul_comm] at this
    omega
  congr 1
  by_cases h0 : nd.ref.length = 0
  · rw [if_pos, if_pos h0]
    rw [h0]
    apply Nat.div_eq_of_lt
    omega
  · rw [if_neg, if_neg h0]
    · rw [Nat.zero_mul, List.drop_zero, List.drop_zero, List.take_of_length_le hle, List.take_of_length_le (by rw [h1]; exact hle)]
      rfl
    · intro h
      rw [h] at hle
      omega

theorem binCenters_length (edges : List ℝ) : (binCenters edges).length = edges.length - 1 := by
  unfold binCenters
  simp

theorem binPoint_eq {nd : Node} (hs : Stored nd) {cs : Nat} (hcs : 0 < cs) {i : Nat} (hi : i < (binCenters nd.edges).length) :
    binPoint nd cs i = if nd.ref.length = 0 then .error .noData else .ok ((pairs nd i).length, corrcoef (pairs nd i)) := by
  rw [binCenters_length] at hi
  unfold binPoint
  rw [if_neg hcs.ne', readPairs_all hs.rows (fun r hr => by have := hs.columns r hr; omega) hcs]
  by_cases h0 : nd.ref.length = 0
  · rw [if_pos h0, if_pos h0]
  · rw [if_neg h0, if_neg h0]

theorem binPoints_eq {nd : Node} (hs : Stored nd) {cs : Nat} (hcs : 0 < cs) (l : List Nat) (hl : ∀ i ∈ l, i < (binCenters nd.edges).length) :
    binPoints nd cs l = if l ≠ [] ∧ nd.ref.length = 0 then .error .noData else .ok (l.map fun i => ((pairs nd i).length, corrcoef (pairs nd i))) := by
  induction l with
  | nil => simp [binPoints]
  | cons i r ih =>
    rw [binPoints, binPoint_eq hs hcs (hl i (by simp)), ih fun j hj => hl j (by simp [hj])]
    by_cases h0 : nd.ref.length = 0
    · simp [h0]
    · simp [h0]

theorem page_eq {nd : Node} (hs : Stored nd) {cs : Nat} (hcs : 0 < cs) (opt : Optimizer) (size : ℝ) :
    page opt cs size nd = if (binCenters nd.edges) ≠ [] ∧ nd.ref.length = 0 then .error .noData else
      match fit opt (binCenters nd.edges) ((List.range (binCenters nd.edges).length).map fun i => ((pairs nd i).length, corrcoef (pairs nd i))) size with
      | .error e => .error e
      | .ok q => .ok ⟨binCenters nd.edges, (List.range (binCenters nd.edges).length).map fun i => ((pairs nd i).length, corrcoef (pairs nd i)), q⟩ := by
  unfold page
  rw [binPoints_eq hs hcs _ fun i hi => List.mem_range.mp hi]
  have e : (List.range (binCenters nd.edges).length ≠ []) ↔ (binCenters nd.edges ≠ []) := by
    rw [Ne, List.range_eq_nil, List.length_eq_zero_iff]
  by_cases h : binCenters nd.edges ≠ [] ∧ nd.ref.length = 0
  · rw [if_pos h, if_pos ⟨e.mpr h.1, h.2⟩]
  · rw [if_neg h, if_neg fun h' => h ⟨e.mp h'.1, h'.2⟩]
    rfl

/-! ### The correlation coefficient -/

theorem cov_eq (ps : List (ℝ × ℝ)) (f g : ℝ × ℝ → ℝ) : cov ps f g = deviations ps f g / (ps.length - 1) := by
  unfold cov deviations mean
  simp

theorem list_sum_fin {α : Type} (l : List α) (f : α → ℝ) : (l.map f).sum = ∑ k : Fin l.length, f l[k] := by
  rw [← List.sum_ofFn]
  congr 1
  apply List.ext_getElem <;> simp

theorem deviations_sq (ps : List (ℝ × ℝ)) (f g : ℝ × ℝ → ℝ) : deviations ps f g ^ 2 ≤ deviations ps f f * deviations ps g g := by
  have e : ∀ f g : ℝ × ℝ → ℝ, deviations ps f g = ∑ k : Fin ps.length, (f ps[k] - (ps.map f).sum / ps.length) * (g ps[k] - (ps.map g).sum / ps.length) :=
    fun f g => list_sum_fin ps _
  rw [e, e, e]
  have := Finset.sum_mul_sq_le_sq_mul_sq Finset.univ (fun k : Fin ps.length => f ps[k] - (ps.map f).sum / ps.length)
    (fun k : Fin ps.length => g ps[k] - (ps.map g).sum / ps.length)
  simpa [sq] using this

theorem deviations_nonneg (ps : List (ℝ × ℝ)) (f : ℝ × ℝ → ℝ) : 0 ≤ deviations ps f f := by
  unfold deviations
  apply List.sum_nonneg
  intro x hx
  obtain ⟨p, -, rfl⟩ := List.mem_map.mp hx
  exact mul_self_nonneg _

/-- The values vary if the sum of the squared deviations is not zero. -/
theorem deviations_pos_iff (ps : List (ℝ × ℝ)) (f : ℝ × ℝ → ℝ) : 0 < deviations ps f f ↔ ∃ p ∈ ps, ∃ q ∈ ps, f p ≠ f q := by
  constructor
  · intro h
    by_contra hc
    push Not at hc
    apply h.ne'
    unfold deviations
    apply List.sum_eq_zero
    intro x hx
    obtain ⟨p, hp, rfl⟩ := List.mem_map.mp hx
    have hsum : (ps.map f).sum = ps.length * f p := by
      rw [List.map_congr_left (g := fun _ => f p) fun q hq => hc q hq p hp]
      simp
    have hl : (ps.length : ℝ) ≠ 0 := by
      have : ps.length ≠ 0 := by
        intro h0
        rw [List.length_eq_zero_iff] at h0
        rw [h0] at hp
        simp at hp
      exact_mod_cast this
    have : f p - (ps.map f).sum / ps.length = 0 := by
      rw [hsum]
      field_simp
      ring
    rw [this, zero_mul]
  · rintro ⟨p, hp, q, hq, hne⟩
    refine lt_of_le_of_ne (deviations_nonneg ps f) fun h0 => hne ?_
    unfold deviations at h0
    have key : ∀ r ∈ ps, f r - (ps.map f).sum / ps.length = 0 := by
      intro r hr
      have hz : (ps.map fun p => (f p - (ps.map f).sum / ps.length) * (f p - (ps.map f).sum / ps.length)).sum = 0 := h0.symm
      rw [list_sum_fin] at hz
      obtain ⟨k, hk, rfl⟩ := List.getElem_of_mem hr
      exact mul_self_eq_zero.mp ((Finset.sum_eq_zero_iff_of_nonneg fun k _ => mul_self_nonneg _).mp hz ⟨k, hk⟩ (Finset.mem_univ _))
    have a := key p hp
    have b := key q hq
    linarith

theorem corrcoef_eq (ps : List (ℝ × ℝ)) : (Varies ps → corrcoef ps = some (pearson ps) ∧ |pearson ps| ≤ 1) ∧ (¬ Varies ps → corrcoef ps = none) := by
  constructor
  · rintro ⟨h1, h2⟩
    have p1 := (deviations_pos_iff ps Prod.fst).mpr h1
    have p2 := (deviations_pos_iff ps Prod.snd).mpr h2
    have hlen : 1 < ps.length := by
      obtain ⟨p, hp, q, hq, hne⟩ := h1
      by_contra hc
      rw [not_lt] at hc
      apply hne
      have : ps = [p] := by
        match ps, hc, hp with
        | [a], _, hp => simp at hp; rw [hp]
      rw [this] at hq
      simp at hq
      rw [hq]
    have hn : (0 : ℝ) < ps.length - 1 := by
      have : (1 : ℝ) < ps.length := by exact_mod_cast hlen
      linarith
    have hb : |pearson ps| ≤ 1 := by
      unfold pearson
      rw [abs_div, abs_of_nonneg (Real.sqrt_nonneg _), div_le_one (Real.sqrt_pos.mpr (mul_pos p1 p2))]
      exact Real.abs_le_sqrt (deviations_sq ps Prod.fst Prod.snd)
    refine ⟨?_, hb⟩
    unfold corrcoef
    rw [if_neg]
    · rw [cov_eq, cov_eq, cov_eq]
      have e : deviations ps Prod.fst Prod.snd / (ps.length - 1) / √(deviations ps Prod.fst Prod.fst / (ps.length - 1)) / √(deviations ps Prod.snd Prod.snd / (ps.length - 1)) =
          pearson ps := by
        unfold pearson
        rw [Real.sqrt_div p1.le, Real.sqrt_div p2.le, Real.sqrt_mul p1.le]
        have s1 := (Real.sqrt_pos.mpr p1).ne'
        have s2 := (Real.sqrt_pos.mpr p2).ne'
        have s3 := (Real.sqrt_pos.mpr hn).ne'
        have s4 := Real.mul_self_sqrt hn.le
        generalize √((ps.length : ℝ) - 1) = w at s3 s4
        rw [← s4]
        field_simp
      rw [e]
      have := abs_le.mp hb
      rw [min_eq_right this.2, max_eq_right this.1]
    · rw [cov_eq, cov_eq]
      rintro (h | h | h)
      · omega
      · exact (div_pos p1 hn).ne' h
      · exact (div_pos p2 hn).ne' h
  · intro h
    unfold corrcoef
    rw [if_pos]
    rw [cov_eq, cov_eq]
    by_cases h1 : ∃ p ∈ ps, ∃ q ∈ ps, p.1 ≠ q.1
    · right; right
      have h2 : ¬ ∃ p ∈ ps, ∃ q ∈ ps, p.2 ≠ q.2 := fun h2 => h ⟨h1, h2⟩
      have : deviations ps Prod.snd Prod.snd = 0 :=
        le_antisymm (not_lt.mp fun hp => h2 ((deviations_pos_iff ps Prod.snd).mp hp)) (deviations_nonneg _ _)
      rw [this, zero_div]
    · right; left
      have : deviations ps Prod.fst Prod.fst = 0 :=
        le_antisymm (not_lt.mp fun hp => h1 ((deviations_pos_iff ps Prod.fst).mp hp)) (deviations_nonneg _ _)
      rw [this, zero_div]

theorem finite_iff (l : List (Option ℝ)) (ys : List ℝ) : finite l = some ys ↔ l = ys.map some := by
  induction l generalizing ys with
  | nil => cases ys <;> simp [finite]
  | cons a r ih =>
    cases a with
    | none => cases ys <;> simp [finite]
    | some v =>
      cases ys with
      | nil => simp [finite]
      | cons y ys =>
        simp only [finite, Option.map_eq_some_iff, List.map_cons, List.cons.injEq, Option.some.injEq]
        constructor
        · rintro ⟨l, h1, h2, h3⟩
          exact ⟨h2, (ih ys).mp (h3 ▸ h1)⟩
        · rintro ⟨h1, h2⟩
          exact ⟨ys, (ih ys).mpr h2, h1, rfl⟩

theorem finite_none_iff (l : List (Option ℝ)) : finite l = none ↔ none ∈ l := by
  induction l with
  | nil => simp [finite]
  | cons a r ih =>
    cases a with
    | none => simp [finite]
    | some v => simp [finite, ih]

end BTA.ResCorr
