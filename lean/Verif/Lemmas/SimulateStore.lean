import Verif.Lemmas.Simulate
/-
Lemmas about `create_data_and_store`.
-/
namespace BTA.Sim
open Spec

theorem appendTables_ok {u2 : ℝ → Nat} {data : List (List (Digit ℝ))} : ∀ {ts : List (List Row)} {i : Nat} {out : List (List Row)},
    appendTables u2 data i ts = .ok out → out.length = ts.length ∧ ∀ (k : Nat) (t0 t : List Row), ts[k]? = some t0 → out[k]? = some t →
      ∃ l, data[i + k]? = some l ∧ t = t0 ++ l.map (toRow u2) := by
  intro ts
  induction ts with
  | nil =>
    intro i out h
    cases h
    exact ⟨rfl, fun k t0 t hk => by simp at hk⟩
  | cons t ts ih =>
    intro i out h
    unfold appendTables at h
    split at h
    · cases h
    · next l e =>
      split at h
      · cases h
      · next rest e2 =>
        cases h
        obtain ⟨a1, a2⟩ := ih e2
        refine ⟨by rw [List.length_cons, List.length_cons, a1], fun k t0 t' hk hk' => ?_⟩
        cases k with
        | zero =>
          have e6 : t = t0 := by simpa using hk
          subst e6
          have e7 : t ++ l.map (toRow u2) = t' := by simpa using hk'
          exact ⟨l, e, e7.symm⟩
        | succ k =>
          obtain ⟨l', b1, b2⟩ := a2 k t0 t' (by simpa using hk) (by simpa using hk')
          rw [show i + 1 + k = i + (k + 1) by omega] at b1
          exact ⟨l', b1, b2⟩

/-- More tables than DUTs in the data. -/
theorem appendTables_short {u2 : ℝ → Nat} {data : List (List (Digit ℝ))} {ts out : List (List Row)} {i : Nat}
    (h : appendTables u2 data i ts = .ok out) : ts = [] ∨ i + ts.length ≤ data.length := by
  rcases ts.eq_nil_or_concat with rfl | ⟨init, last, rfl⟩
  · exact Or.inl rfl
  · right
    rw [List.concat_eq_append] at h ⊢
    obtain ⟨a1, a2⟩ := appendTables_ok h
    rw [List.length_append, List.length_singleton] at a1 ⊢
    obtain ⟨l, h1, _⟩ := a2 init.length last (out[init.length]'(by omega)) (by simp) (List.getElem?_eq_getElem (by omega))
    have := (List.getElem?_eq_some_iff.mp h1).1
    omega

theorem storeLoop_ok {erf : ℝ → ℝ} {u2 : ℝ → Nat} {s : Settings} {d : Nat → Draws} {chunk : Nat} : ∀ {ks : List Nat} {tables out : List (List Row)},
    storeLoop erf u2 s d chunk ks tables = .ok out → out.length = tables.length ∧ ∀ (i : Nat) (t0 t : List Row), tables[i]? = some t0 →
      out[i]? = some t → ∃ parts : List (List (Digit ℝ)), t = t0 ++ parts.flatten.map (toRow u2) ∧
        List.Forall₂ (fun k part => ∃ data, createData erf s (d k) ((k * chunk : Nat) : Int) chunk = .ok data ∧ data[i]? = some part) ks parts := by
  intro ks
  induction ks with
  | nil =>
    intro tables out h
    cases h
    refine ⟨rfl, fun i t0 t h1 h2 => ⟨[], ?_, List.Forall₂.nil⟩⟩
    rw [h1] at h2
    cases h2
    simp
  | cons k ks ih =>
    intro tables out h
    unfold storeLoop at h
    split at h
    · cases h
    · next data e1 =>
      split at h
      · cases h
      · next tables' e2 =>
        obtain ⟨a1, a2⟩ := appendTables_ok e2
        obtain ⟨b1, b2⟩ := ih h
        refine ⟨by rw [b1, a1], fun i t0 t h1 h2 => ?_⟩
        have hi : i < tables'.length := by
          have := (List.getElem?_eq_some_iff.mp h1).1
          omega
        obtain ⟨l, c1, c2⟩ := a2 i t0 _ h1 (List.getElem?_eq_getElem hi)
        rw [Nat.zero_add] at c1
        obtain ⟨parts, p1, p2⟩ := b2 i _ t (List.getElem?_eq_getElem hi) h2
        refine ⟨l :: parts, ?_, List.Forall₂.cons ⟨data, e1, c1⟩ p2⟩
        rw [p1, c2, List.flatten_cons, List.map_append, List.append_assoc]

/-- The number of events in a chunk. -/
def chunkOf (nEvents chunkSize : Nat) : Nat := if nEvents < chunkSize then nEvents else chunkSize

/-- The stored tables: the chunks one after the other. -/
theorem store_ok {erf : ℝ → ℝ} {u2 : ℝ → Nat} {s : Settings} {d : Nat → Draws} {nEvents chunkSize : Nat} {out : List (List Row)}
    (h : createDataAndStore erf u2 s d nEvents chunkSize = .ok out) :
    0 < chunkOf nEvents chunkSize ∧ out.length = s.nDuts ∧ ∀ (i : Nat) (t : List Row), out[i]? = some t → ∃ parts : List (List (Digit ℝ)),
      t = parts.flatten.map (toRow u2) ∧
      List.Forall₂ (fun (k : Nat) part => ∃ data, createData erf s (d k) ((k * chunkOf nEvents chunkSize : Nat) : Int) (chunkOf nEvents chunkSize) =
        .ok data ∧ data[i]? = some part)
        (List.range ((nEvents + (chunkOf nEvents chunkSize - 1)) / chunkOf nEvents chunkSize)) parts := by
  unfold createDataAndStore at h
  dsimp only at h
  split_ifs at h with h1 h2 h2
  all_goals
    obtain ⟨a1, a2⟩ := storeLoop_ok h
    unfold chunkOf
    rw [List.length_replicate] at a1
  · rw [if_pos h1]
    refine ⟨by omega, a1, fun i t ht => ?_⟩
    have hi := (List.getElem?_eq_some_iff.mp ht).1
    obtain ⟨parts, p1, p2⟩ := a2 i [] t (by rw [List.getElem?_replicate, if_pos (by omega)]) ht
    exact ⟨parts, by simpa using p1, p2⟩
  · rw [if_neg h1]
    refine ⟨by omega, a1, fun i t ht => ?_⟩
    have hi := (List.getElem?_eq_some_iff.mp ht).1
    obtain ⟨parts, p1, p2⟩ := a2 i [] t (by rw [List.getElem?_replicate, if_pos (by omega)]) ht
    exact ⟨parts, by simpa using p1, p2⟩

theorem forall2_mem_right {α β : Type} {R : α → β → Prop} {a : List α} {b : List β} (h : List.Forall₂ R a b) {y : β} (hy : y ∈ b) :
    ∃ x ∈ a, R x y := by
  induction h with
  | nil => cases hy
  | cons hr _ ih =>
    rcases List.mem_cons.mp hy with rfl | hy
    · exact ⟨_, List.mem_cons_self .., hr⟩
    · obtain ⟨x, h1, h2⟩ := ih hy
      exact ⟨x, List.mem_cons_of_mem _ h1, h2⟩

theorem pairwise_of_forall2 {α β : Type} {R : α → β → Prop} {P : α → α → Prop} {Q : β → β → Prop} {a : List α} {b : List β}
    (h : List.Forall₂ R a b) (hp : a.Pairwise P) (hq : ∀ x y x' y', P x x' → R x y → R x' y' → Q y y') : b.Pairwise Q := by
  induction h with
  | nil => exact List.Pairwise.nil
  | cons hr ht ih =>
    rw [List.pairwise_cons] at hp ⊢
    refine ⟨fun y hy => ?_, ih hp.2⟩
    obtain ⟨x, hx, h2⟩ := forall2_mem_right ht hy
    exact hq _ _ _ _ (hp.1 x hx) hr h2

/-- All rows: event numbers, order and pixels. -/
theorem store_rows {erf : ℝ → ℝ} {u2 : ℝ → Nat} {s : Settings} {d : Nat → Draws} {nEvents chunkSize : Nat} {out : List (List Row)}
    (h : createDataAndStore erf u2 s d nEvents chunkSize = .ok out) (i : Nat) (t : List Row) (ht : out[i]? = some t) :
    (∀ x ∈ t, 0 ≤ x.event ∧ x.event < ((nEvents + (chunkOf nEvents chunkSize - 1)) / chunkOf nEvents chunkSize * chunkOf nEvents chunkSize : Nat)) ∧
      (t.map Row.event).Pairwise (· ≤ ·) ∧
      (s.discretization = true → ∀ x ∈ t, ∃ c, s.dutNPixel[i]? = some c ∧ (∃ a : Int, x.column = u2 (a : ℝ) ∧ 1 ≤ a ∧ a ≤ c.1) ∧
        ∃ a : Int, x.row = u2 (a : ℝ) ∧ 1 ≤ a ∧ a ≤ c.2) := by
  obtain ⟨h0, _, h2⟩ := store_ok h
  obtain ⟨parts, rfl, hp⟩ := h2 i t ht
  set C := chunkOf nEvents chunkSize with hC
  set N := (nEvents + (C - 1)) / C with hN
  have data : ∀ part ∈ parts, ∃ k < N, ∃ data, createData erf s (d k) ((k * C : Nat) : Int) C = .ok data ∧ data[i]? = some part := by
    intro part hpart
    obtain ⟨k, hk, h3⟩ := forall2_mem_right hp hpart
    exact ⟨k, List.mem_range.mp hk, h3⟩
  refine ⟨?_, ?_, ?_⟩
  · intro x hx
    obtain ⟨dg, hd, rfl⟩ := List.mem_map.mp hx
    obtain ⟨part, hpart, hmem⟩ := List.mem_flatten.mp hd
    obtain ⟨k, hk, dt, e1, e2⟩ := data part hpart
    obtain ⟨a1, a2⟩ := ((createData_ok e1).2 i part e2).1 dg hmem
    show 0 ≤ dg.event ∧ dg.event < ((N * C : Nat) : Int)
    have : (k + 1) * C ≤ N * C := Nat.mul_le_mul_right _ hk
    rw [Nat.add_mul, Nat.one_mul] at this
    omega
  · rw [List.map_map]
    have : (Row.event ∘ toRow u2) = Digit.event := rfl
    rw [this, List.map_flatten, List.pairwise_flatten]
    constructor
    · intro l hl
      obtain ⟨part, hpart, rfl⟩ := List.mem_map.mp hl
      obtain ⟨k, hk, dt, e1, e2⟩ := data part hpart
      exact ((createData_ok e1).2 i part e2).2.1
    · rw [List.pairwise_map]
      refine pairwise_of_forall2 hp List.pairwise_lt_range ?_
      rintro k part k' part' hlt ⟨dt, e1, e2⟩ ⟨dt', e1', e2'⟩ x hx y hy
      obtain ⟨dx, hdx, rfl⟩ := List.mem_map.mp hx
      obtain ⟨dy, hdy, rfl⟩ := List.mem_map.mp hy
      have a1 := ((createData_ok e1).2 i part e2).1 dx hdx
      have a2 := ((createData_ok e1').2 i part' e2').1 dy hdy
      have : (k + 1) * C ≤ k' * C := Nat.mul_le_mul_right _ hlt
      rw [Nat.add_mul, Nat.one_mul] at this
      omega
  · intro hdisc x hx
    obtain ⟨dg, hd, rfl⟩ := List.mem_map.mp hx
    obtain ⟨part, hpart, hmem⟩ := List.mem_flatten.mp hd
    obtain ⟨k, hk, dt, e1, e2⟩ := data part hpart
    obtain ⟨c, hc, hall⟩ := ((createData_ok e1).2 i part e2).2.2 hdisc
    obtain ⟨⟨a, ha, ha1, ha2⟩, b, hb, hb1, hb2⟩ := hall dg hmem
    exact ⟨c, hc, ⟨a, by show u2 dg.column = _; rw [ha], ha1, ha2⟩, b, by show u2 dg.row = _; rw [hb], hb1, hb2⟩

end BTA.Sim
