import Verif.Spec.Smc
import Mathlib.Algebra.Group.Defs
import Mathlib.Tactic.Common
import Mathlib.Tactic.Ring
/-
Adding the results of the chunks in `SMC`.
-/
namespace BTA.Smc
open BTA.Spec

variable {α R K : Type} [AddCommMonoid K]

theorem elem_zero (shape : List Nat) (n : Nat) (idx : List Nat) : elem shape (List.replicate n (0 : K)) idx = 0 := by
  induction shape generalizing n idx with
  | nil =>
    cases idx with
    | nil => cases n <;> rfl
    | cons i idx => rfl
  | cons s shape ih =>
    cases idx with
    | nil => rfl
    | cons i idx =>
      simp only [elem, List.drop_replicate, List.take_replicate]
      split
      · exact ih _ _
      · rfl

theorem elem_add (shape : List Nat) (a b : List K) (h : a.length = b.length) (idx : List Nat) :
    elem shape (List.zipWith (· + ·) a b) idx = elem shape a idx + elem shape b idx := by
  induction shape generalizing a b idx with
  | nil =>
    cases idx with
    | nil =>
      cases a with
      | nil => cases b with
        | nil => simp [elem]
        | cons y b => simp at h
      | cons x a => cases b with
        | nil => simp at h
        | cons y b => simp [elem]
    | cons i idx => simp [elem]
  | cons s shape ih =>
    cases idx with
    | nil => simp [elem]
    | cons i idx =>
      simp only [elem]
      split
      · rw [List.drop_zipWith, List.take_zipWith]
        exact ih _ _ (by simp [h]) _
      · simp

theorem elem_resize (n m : Nat) (tail : List Nat) (data : List K) (h : data.length = n * arraySize tail) (hnm : n ≤ m)
    (idx : List Nat) : elem (m :: tail) (resize (m :: tail) data) idx = elem (n :: tail) data idx := by
  cases idx with
  | nil => rfl
  | cons i idx =>
    simp only [elem]
    have hle : n * arraySize tail ≤ m * arraySize tail := Nat.mul_le_mul_right _ hnm
    have hr : resize (m :: tail) data = data ++ List.replicate (m * arraySize tail - data.length) 0 := by
      unfold resize
      have : arraySize (m :: tail) = m * arraySize tail := rfl
      rw [this, List.take_of_length_le (by omega)]
    change (if i < m then elem tail ((List.drop (i * arraySize tail) _).take (arraySize tail)) idx else 0) =
      if i < n then elem tail ((data.drop (i * arraySize tail)).take (arraySize tail)) idx else 0
    rw [hr]
    by_cases h1 : i < n
    · rw [if_pos (by omega), if_pos h1]
      have : (i + 1) * arraySize tail ≤ n * arraySize tail := Nat.mul_le_mul_right _ h1
      rw [Nat.add_mul, Nat.one_mul] at this
      rw [List.drop_append_of_le_length (by omega), List.take_append_of_le_length (by simp; omega)]
    · rw [if_neg h1]
      split
      · have : n * arraySize tail ≤ i * arraySize tail := Nat.mul_le_mul_right _ (by omega)
        rw [List.drop_append, List.drop_of_length_le (by omega)]
        simp only [List.nil_append, List.drop_replicate, List.take_replicate]
        exact elem_zero _ _ _
      · rfl

theorem length_resize (shape : List Nat) (data : List K) : (resize shape data).length = arraySize shape := by
  simp [resize]
  omega

theorem maxShape_tail (n m : Nat) (tail : List Nat) : maxShape (n :: tail) (m :: tail) = some (max n m :: tail) := by
  have : List.zipWith max tail tail = tail := by
    induction tail with
    | nil => rfl
    | cons a t ih => simp [ih]
  simp [maxShape, this]

/-- One item is added to the sum. -/
theorem add_isSum (kind : Kind) (items : List (Item R K)) (a b : Item R K) (ha : kind.IsSum items a) (hb : kind.Match b) :
    ∃ c, a.add b = some c ∧ kind.IsSum (items ++ [b]) c := by
  cases kind with
  | table =>
    cases b with
    | table rows =>
      simp only [Kind.IsSum] at ha ⊢
      subst ha
      exact ⟨_, rfl, by simp [rowsOf]⟩
    | _ => exact hb.elim
  | hist tail =>
    cases b with
    | hist shape' data' =>
      obtain ⟨ha1, ha2⟩ := ha
      cases a with
      | hist shape data =>
        obtain ⟨n, rfl, hn⟩ := ha1
        obtain ⟨m, rfl, hm⟩ := hb
        refine ⟨.hist (max n m :: tail) (List.zipWith (· + ·) (resize (max n m :: tail) data) (resize (max n m :: tail) data')),
          by simp only [Item.add, maxShape_tail], ⟨max n m, rfl, ?_⟩, fun idx => ?_⟩
        · rw [List.length_zipWith, length_resize, length_resize, Nat.min_self]
          rfl
        · simp only [List.map_append, List.sum_append, List.map_cons, List.map_nil, List.sum_cons, List.sum_nil, add_zero]
          rw [← ha2 idx]
          change elem _ _ idx = elem _ _ idx + elem _ _ idx
          rw [elem_add _ _ _ (by rw [length_resize, length_resize]),
            elem_resize n (max n m) tail data hn (Nat.le_max_left _ _),
            elem_resize m (max n m) tail data' hm (Nat.le_max_right _ _)]
      | _ => exact ha1.elim
    | _ => exact hb.elim

theorem start_isSum (kind : Kind) (b : Item R K) (hb : kind.Match b) : kind.IsSum [] b.start := by
  cases kind with
  | table =>
    cases b with
    | table rows => rfl
    | _ => exact hb.elim
  | hist tail =>
    cases b with
    | hist shape data =>
      obtain ⟨n, h1, h2⟩ := hb
      refine ⟨⟨n, h1, by simpa using h2⟩, fun idx => ?_⟩
      have : data.map (fun _ => (0 : K)) = List.replicate data.length 0 := List.map_const' ..
      simp only [Item.start, histAt, this, List.map_nil, List.sum_nil]
      exact elem_zero _ _ _
    | _ => exact hb.elim

theorem addAll_ok (as bs : List (Item R K)) (hl : as.length = bs.length)
    (h : ∀ (i : Nat) a b, as[i]? = some a → bs[i]? = some b → ∃ c, a.add b = some c) :
    ∃ cs, addAll as bs = some cs ∧ cs.length = as.length ∧
      ∀ (i : Nat) a b, as[i]? = some a → bs[i]? = some b → ∃ c, cs[i]? = some c ∧ a.add b = some c := by
  induction as generalizing bs with
  | nil =>
    refine ⟨[], rfl, rfl, ?_⟩
    intro i a b ha
    simp at ha
  | cons a as ih =>
    cases bs with
    | nil => simp at hl
    | cons b bs =>
      obtain ⟨c, hc⟩ := h 0 a b rfl rfl
      obtain ⟨cs, h1, h2, h3⟩ := ih bs (by simpa using hl) (fun i a b ha hb => h (i + 1) a b (by simpa using ha) (by simpa using hb))
      refine ⟨c :: cs, by simp [addAll, hc, h1], by simp [h2], ?_⟩
      intro i a' b' ha hb
      cases i with
      | zero =>
        simp only [List.getElem?_cons_zero, Option.some.injEq] at ha hb
        subst ha hb
        exact ⟨c, rfl, hc⟩
      | succ i => exact h3 i a' b' (by simpa using ha) (by simpa using hb)

theorem Kind.Match.isArray {kind : Kind} {b : Item R K} (h : kind.Match b) : b.isArray = true := by
  cases b with
  | other => cases kind <;> exact h.elim
  | _ => rfl

/-- The values of the function for the nodes are of the given kinds. -/
def MatchAll (kinds : List Kind) (res : List (Item R K)) : Prop :=
  res.length = kinds.length ∧ ∀ (i : Nat) k b, kinds[i]? = some k → res[i]? = some b → k.Match b

def SumAll (kinds : List Kind) (rs : List (List (Item R K))) (out : List (Item R K)) : Prop :=
  out.length = kinds.length ∧ ∀ (i : Nat) k o, kinds[i]? = some k → out[i]? = some o → k.IsSum (rs.map fun r => r.getD i .other) o

theorem addAll_sum (kinds : List Kind) (rs : List (List (Item R K))) (out res : List (Item R K)) (ho : SumAll kinds rs out)
    (hr : MatchAll kinds res) : ∃ out', addAll out res = some out' ∧ SumAll kinds (rs ++ [res]) out' := by
  have key : ∀ (i : Nat) a b, out[i]? = some a → res[i]? = some b → ∃ k c, kinds[i]? = some k ∧ a.add b = some c ∧
      k.IsSum ((rs ++ [res]).map fun r => r.getD i .other) c := by
    intro i a b ha hb
    obtain ⟨hi, -⟩ := List.getElem?_eq_some_iff.mp ha
    have hk : kinds[i]? = some (kinds[i]'(by rw [← ho.1]; exact hi)) := List.getElem?_eq_getElem _
    obtain ⟨c, h1, h2⟩ := add_isSum _ _ a b (ho.2 i _ a hk ha) (hr.2 i _ b hk hb)
    refine ⟨_, c, hk, h1, ?_⟩
    simpa [hb] using h2
  obtain ⟨out', h1, h2, h3⟩ := addAll_ok out res (by rw [ho.1, hr.1])
    (fun i a b ha hb => by obtain ⟨k, c, -, h, -⟩ := key i a b ha hb; exact ⟨c, h⟩)
  refine ⟨out', h1, by rw [h2, ho.1], ?_⟩
  intro i k o hk ho'
  obtain ⟨hi, -⟩ := List.getElem?_eq_some_iff.mp ho'
  obtain ⟨c, hc, hac⟩ := h3 i _ _ (List.getElem?_eq_getElem (by omega)) (List.getElem?_eq_getElem (by rw [hr.1, ← ho.1]; omega))
  obtain ⟨k', c', hk', hac', hs⟩ := key i _ _ (List.getElem?_eq_getElem (by omega)) (List.getElem?_eq_getElem (by rw [hr.1, ← ho.1]; omega))
  rw [hk] at hk'
  cases hk'
  rw [hac] at hac'
  cases hac'
  rw [ho'] at hc
  cases hc
  exact hs

theorem combine_sum (kinds : List Kind) (res : List (Item R K)) (hr : MatchAll kinds res) :
    (∃ out, combine kinds.length none res = some out ∧ SumAll kinds [res] out) ∧
    ∀ rs out, SumAll kinds rs out → ∃ out', combine kinds.length (some out) res = some out' ∧ SumAll kinds (rs ++ [res]) out' := by
  have h1 : (res.any fun item => !item.isArray) = false := by
    rw [List.any_eq_false]
    intro b hb
    obtain ⟨i, hi, rfl⟩ := List.getElem_of_mem hb
    have := Kind.Match.isArray (hr.2 i _ _ (List.getElem?_eq_getElem (by rw [← hr.1]; exact hi)) (List.getElem?_eq_getElem hi))
    simp [this]
  constructor
  · have : SumAll kinds [] (res.map Item.start) := by
      refine ⟨by simpa using hr.1, ?_⟩
      intro i k o hk ho
      rw [List.getElem?_map] at ho
      obtain ⟨b, hb, rfl⟩ := Option.map_eq_some_iff.mp ho
      exact start_isSum k b (hr.2 i k b hk hb)
    obtain ⟨out, h2, h3⟩ := addAll_sum kinds [] _ res this hr
    exact ⟨out, by simp [combine, h1, hr.1, h2], by simpa using h3⟩
  · intro rs out ho
    obtain ⟨out', h2, h3⟩ := addAll_sum kinds rs out res ho hr
    exact ⟨out', by simp [combine, h1, hr.1, h2], h3⟩

/-- Serial processing of chunks for which the function returns items of the given kinds. -/
theorem serial_sum (kinds : List Kind) (f : α → List (Item R K)) (chunks : List α) (h : ∀ c ∈ chunks, MatchAll kinds (f c))
    (hne : chunks ≠ []) :
    ∃ out, serial (fun c => some (f c)) (combine kinds.length) chunks = some (some out) ∧ SumAll kinds (chunks.map f) out := by
  have key : ∀ (l : List α) (rs : List (List (Item R K))) out, (∀ c ∈ l, MatchAll kinds (f c)) → SumAll kinds rs out →
      ∃ out', l.foldlM (fun (acc : Option (List (Item R K))) c => do
          return some (← combine kinds.length acc (← (some (f c) : Option (List (Item R K)))))) (some out) = some (some out') ∧
        SumAll kinds (rs ++ l.map f) out' := by
    intro l
    induction l with
    | nil => intro rs out _ ho; exact ⟨out, rfl, by simpa using ho⟩
    | cons c l ih =>
      intro rs out hm ho
      obtain ⟨out1, h1, h2⟩ := (combine_sum kinds (f c) (hm c (by simp))).2 rs out ho
      obtain ⟨out2, h3, h4⟩ := ih (rs ++ [f c]) out1 (fun d hd => hm d (by simp [hd])) h2
      refine ⟨out2, ?_, by simpa using h4⟩
      simp only [List.foldlM_cons]
      simpa [h1] using h3
  cases chunks with
  | nil => exact absurd rfl hne
  | cons c l =>
    obtain ⟨out1, h1, h2⟩ := (combine_sum kinds (f c) (h c (by simp))).1
    obtain ⟨out2, h3, h4⟩ := key l [f c] out1 (fun d hd => h d (by simp [hd])) h2
    refine ⟨out2, ?_, by simpa using h4⟩
    unfold serial
    simp only [List.foldlM_cons]
    simpa [h1] using h3

end BTA.Smc
