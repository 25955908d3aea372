import Verif.Model.Isolation
import Verif.Spec.Events
import Mathlib.Tactic.Common
import Mathlib.Tactic.Ring
/-
Lemmas about the isolation search.
-/
namespace BTA.Iso
open BTA.Spec

variable {K : Type} [Field K] [LinearOrder K]

/-- entry `k` is flagged -/
def F (flags : List Bool) (k : Nat) : Prop := flags[k]? = some true

theorem F_set (flags : List Bool) (i k : Nat) (hi : i < flags.length) : F (flags.set i true) k ↔ F flags k ∨ k = i := by
  unfold F
  rw [List.getElem?_set]
  by_cases h : i = k
  · subst h; simp [hi]
  · rw [if_neg h]
    constructor
    · exact .inl
    · rintro (h1 | h1)
      · exact h1
      · exact absurd h1.symm h

theorem sorted_get {rows : List (Pt K)} (hs : SortedBy Pt.event rows) {a b : Nat} (hab : a ≤ b) (hb : b < rows.length) :
    (rows[a]'(by omega)).event ≤ rows[b].event := by
  rcases Nat.lt_or_eq_of_le hab with h | h
  · exact List.pairwise_iff_getElem.mp hs a b (by omega) hb h
  · subst h; exact Int.le_refl _

theorem inner_spec (e : Bool) (mx my : K) (rows : List (Pt K)) (hs : SortedBy Pt.event rows) (cur : Int) (i : Nat) (p : Pt K)
    (j : Nat) (flags : List Bool) (hij : i < j) (hi : i < rows.length) (hlen : flags.length = rows.length)
    (hc : ∀ m (hm : m < rows.length), j ≤ m → cur ≤ rows[m].event) :
    (inner e mx my rows cur i p j flags).length = rows.length ∧
    ∀ k, F (inner e mx my rows cur i p j flags) k ↔ F flags k ∨
      ∃ m, ∃ hm : m < rows.length, j ≤ m ∧ rows[m].event = cur ∧ close e mx my p rows[m] = true ∧ (k = i ∨ k = m) := by
  fun_induction inner e mx my rows cur i p j flags with
  | case1 j flags h he flags' ih =>
    have hl' : flags'.length = rows.length := by
      simp only [flags']
      split <;> simp [hlen]
    obtain ⟨h1, h2⟩ := ih (by omega) hl' (fun m hm hjm => hc m hm (by omega))
    refine ⟨h1, fun k => (h2 k).trans ?_⟩
    have hF : F flags' k ↔ F flags k ∨ (close e mx my p rows[j] = true ∧ (k = i ∨ k = j)) := by
      simp only [flags']
      by_cases hcl : close e mx my p rows[j] = true
      · rw [dif_pos hcl, F_set _ _ _ (by simp; omega), F_set _ _ _ (by omega)]
        simp only [hcl, true_and]
        tauto
      · rw [dif_neg hcl]
        simp [hcl]
    rw [hF]
    constructor
    · rintro ((h | ⟨h3, h4⟩) | ⟨m, hm, hjm, h3, h4, h5⟩)
      · exact .inl h
      · exact .inr ⟨j, h, Nat.le_refl _, he, h3, h4⟩
      · exact .inr ⟨m, hm, by omega, h3, h4, h5⟩
    · rintro (h | ⟨m, hm, hjm, h3, h4, h5⟩)
      · exact .inl (.inl h)
      · rcases Nat.lt_or_eq_of_le hjm with h6 | h6
        · exact .inr ⟨m, hm, by omega, h3, h4, h5⟩
        · subst h6; exact .inl (.inr ⟨h4, h5⟩)
  | case2 j flags h he =>
    refine ⟨hlen, fun k => ⟨.inl, ?_⟩⟩
    rintro (h1 | ⟨m, hm, hjm, h3, -⟩)
    · exact h1
    · have h4 := sorted_get hs hjm hm
      have h5 := hc j h (Nat.le_refl _)
      omega
  | case3 j flags h =>
    refine ⟨hlen, fun k => ⟨.inl, ?_⟩⟩
    rintro (h1 | ⟨m, hm, hjm, -⟩)
    · exact h1
    · omega

theorem middle_spec (e : Bool) (mx my : K) (rows : List (Pt K)) (hs : SortedBy Pt.event rows) (cur : Int) (i : Nat)
    (flags : List Bool) (hlen : flags.length = rows.length)
    (hc : ∀ m (hm : m < rows.length), i ≤ m → cur ≤ rows[m].event) :
    let r := middle e mx my rows cur i flags
    r.2.length = rows.length ∧ (∀ m (hm : m < rows.length), i ≤ m → (m < r.1 ↔ rows[m].event = cur)) ∧
    ∀ k, F r.2 k ↔ F flags k ∨ ∃ a b, ∃ (ha : a < rows.length) (hb : b < rows.length), i ≤ a ∧ a < b ∧
      rows[a].event = cur ∧ rows[b].event = cur ∧ close e mx my rows[a] rows[b] = true ∧ (k = a ∨ k = b) := by
  fun_induction middle e mx my rows cur i flags with
  | case1 i flags h he ih =>
    obtain ⟨g1, g2⟩ := inner_spec e mx my rows hs cur i rows[i] (i + 1) flags (by omega) h hlen
      (fun m hm hjm => hc m hm (by omega))
    obtain ⟨h1, h2, h3⟩ := ih g1 (fun m hm hjm => hc m hm (by omega))
    refine ⟨h1, ?_, ?_⟩
    · intro m hm him
      rcases Nat.lt_or_eq_of_le him with h4 | h4
      · exact h2 m hm (by omega)
      · subst h4
        constructor
        · intro _; exact he
        · intro _
          have := middle_ge e mx my rows cur (i + 1) (inner e mx my rows cur i rows[i] (i + 1) flags)
          omega
    · intro k
      rw [h3 k, g2 k]
      constructor
      · rintro ((h4 | ⟨m, hm, h5, h6, h7, h8⟩) | ⟨a, b, ha, hb, h5, h6, h7⟩)
        · exact .inl h4
        · exact .inr ⟨i, m, h, hm, Nat.le_refl _, by omega, he, h6, h7, h8⟩
        · exact .inr ⟨a, b, ha, hb, by omega, h6, h7⟩
      · rintro (h4 | ⟨a, b, ha, hb, h5, h6, h7, h8, h9, h10⟩)
        · exact .inl (.inl h4)
        · rcases Nat.lt_or_eq_of_le h5 with h11 | h11
          · exact .inr ⟨a, b, ha, hb, by omega, h6, h7, h8, h9, h10⟩
          · subst h11
            exact .inl (.inr ⟨b, hb, by omega, h8, h9, h10⟩)
  | case2 i flags h he =>
    have hgt : ∀ m (hm : m < rows.length), i ≤ m → rows[m].event ≠ cur := by
      intro m hm him h3
      have h4 := sorted_get hs him hm
      have h5 := hc i h (Nat.le_refl _)
      omega
    refine ⟨hlen, ?_, fun k => ⟨.inl, ?_⟩⟩
    · intro m hm him
      constructor
      · intro; simp only at *; omega
      · intro h3; exact absurd h3 (hgt m hm him)
    · rintro (h1 | ⟨a, b, ha, hb, h3, h4, h5, -⟩)
      · exact h1
      · exact absurd h5 (hgt a ha h3)
  | case3 i flags h =>
    refine ⟨hlen, ?_, fun k => ⟨.inl, ?_⟩⟩
    · intro m hm him; omega
    · rintro (h1 | ⟨a, b, ha, hb, h3, h4, h5, -⟩)
      · exact h1
      · omega

theorem outer_spec (e : Bool) (mx my : K) (rows : List (Pt K)) (hs : SortedBy Pt.event rows) (i : Nat)
    (flags : List Bool) (hlen : flags.length = rows.length) :
    let r := outer e mx my rows i flags
    r.length = rows.length ∧
    ∀ k, F r k ↔ F flags k ∨ ∃ a b, ∃ (ha : a < rows.length) (hb : b < rows.length), i ≤ a ∧ a < b ∧
      rows[a].event = rows[b].event ∧ close e mx my rows[a] rows[b] = true ∧ (k = a ∨ k = b) := by
  fun_induction outer e mx my rows i flags with
  | case1 i flags h ih =>
    obtain ⟨g1, g2, g3⟩ := middle_spec e mx my rows hs rows[i].event i flags hlen
      (fun m hm him => sorted_get hs him hm)
    obtain ⟨h1, h2⟩ := ih g1
    refine ⟨h1, fun k => ?_⟩
    rw [h2 k, g3 k]
    have hge := middle_ge e mx my rows rows[i].event i flags
    constructor
    · rintro ((h4 | ⟨a, b, ha, hb, h5, h6, h7, h8, h9⟩) | ⟨a, b, ha, hb, h5, h6, h7, h8, h9⟩)
      · exact .inl h4
      · exact .inr ⟨a, b, ha, hb, h5, h6, h7.trans h8.symm, h9⟩
      · exact .inr ⟨a, b, ha, hb, by omega, h6, h7, h8, h9⟩
    · rintro (h4 | ⟨a, b, ha, hb, h5, h6, h7, h8, h9⟩)
      · exact .inl (.inl h4)
      · by_cases ha' : a < (middle e mx my rows rows[i].event i flags).1
        · have hae := (g2 a ha h5).mp ha'
          exact .inl (.inr ⟨a, b, ha, hb, h5, h6, hae, h7.symm.trans hae, h8, h9⟩)
        · exact .inr ⟨a, b, ha, hb, by omega, h6, h7, h8, h9⟩
  | case2 i flags h =>
    refine ⟨hlen, fun k => ⟨.inl, ?_⟩⟩
    rintro (h1 | ⟨a, b, ha, hb, h3, -⟩)
    · exact h1
    · omega

theorem close_comm [IsStrictOrderedRing K] (e : Bool) (mx my : K) (p q : Pt K) :
    close e mx my p q = close e mx my q p := by
  unfold close
  cases hpx : p.x <;> cases hqx : q.x <;> try rfl
  cases hpy : p.y <;> cases hqy : q.y <;> try rfl
  rename_i a b c d
  simp only []
  rw [abs_sub_comm a b, abs_sub_comm c d, show (a - b) ^ 2 = (b - a) ^ 2 by ring, show (c - d) ^ 2 = (d - c) ^ 2 by ring]

theorem smallDistance_spec [IsStrictOrderedRing K] (e : Bool) (mx my : K) (rows : List (Pt K)) (hs : SortedBy Pt.event rows) :
    (smallDistance e mx my rows).length = rows.length ∧
    ∀ i (hi : i < rows.length), F (smallDistance e mx my rows) i ↔
      ∃ j, ∃ hj : j < rows.length, j ≠ i ∧ rows[j].event = rows[i].event ∧ close e mx my rows[i] rows[j] = true := by
  obtain ⟨h1, h2⟩ := outer_spec e mx my rows hs 0 (List.replicate rows.length false) (by simp)
  refine ⟨h1, fun i hi => (h2 i).trans ?_⟩
  have h0 : ¬ F (List.replicate rows.length false) i := by
    unfold F
    rw [List.getElem?_replicate]
    split <;> simp
  constructor
  · rintro (h | ⟨a, b, ha, hb, -, h4, h5, h6, h7 | h7⟩)
    · exact absurd h h0
    · subst h7; exact ⟨b, hb, by omega, h5.symm, h6⟩
    · subst h7; exact ⟨a, ha, by omega, h5, (close_comm ..).trans h6⟩
  · rintro ⟨j, hj, h3, h4, h5⟩
    right
    rcases Nat.lt_or_gt_of_ne h3 with h | h
    · exact ⟨j, i, hj, hi, Nat.zero_le _, h, h4, (close_comm ..).trans h5, .inr rfl⟩
    · exact ⟨i, j, hi, hj, Nat.zero_le _, h, h4.symm, h5, .inl rfl⟩

end BTA.Iso
