import Verif.Lemmas.FitTracks
import Mathlib.Data.List.Perm.Basic
/-
Lemmas about the grouping of DUTs in `fit_tracks`.
-/
namespace BTA.Fit
open BTA.Spec

theorem effectiveFit_toFinset (c : DutCfg) : (effectiveFit c).toFinset = ownFit c := by
  unfold effectiveFit ownFit
  cases c.exclude with
  | false => rfl
  | true =>
    ext d
    simp [and_comm]

/-- number of hits known independently of duplicates -/
def CleanFit (c : DutCfg) : Prop := c.fitDuts.Nodup

theorem effectiveFit_nodup {c : DutCfg} (h : c.fitDuts.Nodup) : (effectiveFit c).Nodup := by
  unfold effectiveFit
  split
  · exact (List.nodup_dedup _).filter _
  · exact h

theorem effectiveFit_length {c : DutCfg} (h : c.fitDuts.Nodup) : (effectiveFit c).length = (ownFit c).card := by
  rw [← effectiveFit_toFinset, List.toFinset_card_of_nodup (effectiveFit_nodup h)]

theorem actualMinHits_eq {c : DutCfg} (h : c.fitDuts.Nodup) : actualMinHits c = required c := by
  unfold actualMinHits required
  rw [effectiveFit_length h]

/-- What has to be equal for DUTs of a group. -/
def key (c : DutCfg) : Finset Nat × Finset Nat × Option Nat := (ownFit c, c.hitDuts.toFinset, c.minHits)

theorem sameTracks_iff (c a : DutCfg) : sameTracks c a = true ↔ c.dut = a.dut ∨ key c = key a := by
  unfold sameTracks key ownFit
  rw [Bool.or_eq_true, decide_eq_true_eq]
  apply or_congr Iff.rfl
  simp only [Prod.mk.injEq, Finset.sdiff_singleton_eq_erase]
  cases c.exclude <;> cases a.exclude <;> simp [and_assoc]

theorem dutMask_congr {l l' : List Nat} (h : l.toFinset = l'.toFinset) : dutMask l = dutMask l' := by
  apply Nat.eq_of_testBit_eq
  intro i
  rw [dutMask_testBit, dutMask_testBit, decide_eq_decide, ← List.mem_toFinset, h, List.mem_toFinset]

section
variable {K R : Type} [Field K] [LinearOrder K]

theorem key_select {c a : DutCfg} (hc : c.fitDuts.Nodup) (ha : a.fitDuts.Nodup) (h : key c = key a) (kalman : Bool)
    (flag : Nat) : selectFit kalman c flag = selectFit kalman a flag ∧ selectStore kalman c flag = selectStore kalman a flag := by
  unfold key at h
  simp only [Prod.mk.injEq] at h
  obtain ⟨h1, h2, h3⟩ := h
  have e1 : dutMask (effectiveFit c) = dutMask (effectiveFit a) :=
    dutMask_congr (by rw [effectiveFit_toFinset, effectiveFit_toFinset, h1])
  have e2 : dutMask c.hitDuts = dutMask a.hitDuts := dutMask_congr h2
  have e3 : actualMinHits c = actualMinHits a := by
    rw [actualMinHits_eq hc, actualMinHits_eq ha]
    unfold required
    rw [h1, h3]
  have e4 : selectFit kalman c flag = selectFit kalman a flag := by unfold selectFit; rw [e1, e3]
  exact ⟨e4, by unfold selectStore; rw [e4, e1, e2, e3]⟩

theorem chunkLoop_congr (est : Cand K → Nat → Est K R) (planes : List (Plane K)) (keepData kalman : Bool) {c a : DutCfg}
    (h1 : ∀ flag, selectFit kalman c flag = selectFit kalman a flag)
    (h2 : ∀ flag, selectStore kalman c flag = selectStore kalman a flag) (S : Sampling) (maxEvents total : Nat)
    (items : List (List (Cand K) × Nat)) (stored : Nat) :
    chunkLoop est planes keepData kalman c S maxEvents total items stored
      = chunkLoop est planes keepData kalman a S maxEvents total items stored := by
  induction items generalizing stored with
  | nil => rfl
  | cons it rest ih =>
    obtain ⟨chunk, idx⟩ := it
    simp only [chunkLoop, h1, h2, ih]

theorem fitGroup_congr (est : Finset Nat → Cand K → Nat → Est K R) (planes : List (Plane K)) (keepData kalman : Bool)
    (S : Sampling) (maxEvents cs : Nat) (T : List (Cand K)) {c a : DutCfg} (hc : c.fitDuts.Nodup) (ha : a.fitDuts.Nodup)
    (h : key c = key a) :
    fitGroup est planes keepData kalman S maxEvents cs T c = fitGroup est planes keepData kalman S maxEvents cs T a := by
  have hk := h
  unfold key at h
  simp only [Prod.mk.injEq] at h
  obtain ⟨h1, h2, h3⟩ := h
  unfold fitGroup
  rw [effectiveFit_toFinset, effectiveFit_toFinset, h1, effectiveFit_length hc, effectiveFit_length ha, h1,
    actualMinHits_eq hc, actualMinHits_eq ha]
  have : required c = required a := by unfold required; rw [h1, h3]
  simp only [this, chunkLoop_congr (est (ownFit a)) planes keepData kalman (fun f => (key_select hc ha hk kalman f).1)
    (fun f => (key_select hc ha hk kalman f).2)]

/-- Loop over the groups: the DUTs with a table are those of the remaining groups, each once, and the table of a DUT is the
result of processing a DUT with equal key. -/
theorem groupLoop_spec (proc : DutCfg → Except Err (Nat → List (Row K R))) (all : List DutCfg)
    (hnd : (all.map DutCfg.dut).Nodup) (rest : List DutCfg) (hrest : ∀ a ∈ rest, a ∈ all) (fitted : List Nat)
    (hcl : ∀ c ∈ all, ∀ c' ∈ all, key c = key c' → c.dut ∈ fitted → c'.dut ∈ fitted)
    (tables : List (Nat × List (Row K R))) (h : groupLoop proc all rest fitted = .ok tables) :
    (tables.map Prod.fst).Nodup ∧
    (∀ k, k ∈ tables.map Prod.fst ↔ k ∉ fitted ∧ ∃ c ∈ all, c.dut = k ∧ ∃ a ∈ rest, key c = key a) ∧
    (∀ t ∈ tables, ∃ c ∈ all, ∃ a ∈ rest, key c = key a ∧ c.dut = t.1 ∧ ∃ f, proc a = .ok f ∧ t.2 = f t.1) := by
  have hinj : ∀ c ∈ all, ∀ c' ∈ all, c.dut = c'.dut → c = c' := fun c hc c' hc' he =>
    List.inj_on_of_nodup_map hnd hc hc' he
  induction rest generalizing fitted tables with
  | nil =>
    simp only [groupLoop, Except.ok.injEq] at h
    subst h
    simp
  | cons a rest ih =>
    have ha : a ∈ all := hrest a (List.mem_cons_self ..)
    have hrest' : ∀ a ∈ rest, a ∈ all := fun b hb => hrest b (List.mem_cons_of_mem _ hb)
    have hsame : ∀ c ∈ all, sameTracks c a = true ↔ key c = key a := by
      intro c hc
      rw [sameTracks_iff]
      constructor
      · rintro (h | h)
        · rw [hinj c hc a ha h]
        · exact h
      · exact .inr
    unfold groupLoop at h
    split at h
    · rename_i hin
      obtain ⟨h1, h2, h3⟩ := ih hrest' fitted hcl tables h
      refine ⟨h1, fun k => (h2 k).trans (and_congr_right ?_), ?_⟩
      · intro hk
        constructor
        · rintro ⟨c, hc, h4, b, hb, h5⟩
          exact ⟨c, hc, h4, b, List.mem_cons_of_mem _ hb, h5⟩
        · rintro ⟨c, hc, h4, b, hb, h5⟩
          rcases List.mem_cons.mp hb with rfl | hb
          · exact absurd (hcl b ha c hc h5.symm hin) (h4 ▸ hk)
          · exact ⟨c, hc, h4, b, hb, h5⟩
      · intro t ht
        obtain ⟨c, hc, b, hb, h⟩ := h3 t ht
        exact ⟨c, hc, b, List.mem_cons_of_mem _ hb, h⟩
    · rename_i hin
      have hgroup : ∀ k, k ∈ (all.filter fun c => sameTracks c a).map DutCfg.dut ↔
          ∃ c ∈ all, c.dut = k ∧ key c = key a := by
        intro k
        rw [List.mem_map]
        constructor
        · rintro ⟨c, hc, rfl⟩
          rw [List.mem_filter] at hc
          exact ⟨c, hc.1, rfl, (hsame c hc.1).mp hc.2⟩
        · rintro ⟨c, hc, rfl, h4⟩
          exact ⟨c, List.mem_filter.mpr ⟨hc, (hsame c hc).mpr h4⟩, rfl⟩
      simp only [] at h
      split at h
      · cases h
      · rename_i f hf
        split at h
        · cases h
        · rename_i tables' htab
          cases h
          obtain ⟨h1, h2, h3⟩ := ih hrest' _ (by
            intro c hc c' hc' hk hcf
            rcases List.mem_append.mp hcf with hcf | hcf
            · exact List.mem_append_left _ (hcl c hc c' hc' hk hcf)
            · obtain ⟨c'', hc'', h4, h5⟩ := (hgroup _).mp hcf
              rw [hinj c'' hc'' c hc h4] at h5
              exact List.mem_append_right _ ((hgroup _).mpr ⟨c', hc', rfl, hk.symm.trans h5⟩)) tables' htab
          have hfst : ((all.filter fun c => sameTracks c a).map DutCfg.dut).map (Prod.fst ∘ fun k => (k, f k))
              = (all.filter fun c => sameTracks c a).map DutCfg.dut := by
            rw [show (Prod.fst ∘ fun k => (k, f k)) = id from rfl, List.map_id]
          rw [List.map_append, List.map_map, hfst]
          refine ⟨?_, ?_, ?_⟩
          · rw [List.nodup_append]
            refine ⟨List.Nodup.sublist (List.Sublist.map _ List.filter_sublist) hnd, h1, ?_⟩
            rintro k hk _ hk' rfl
            exact ((h2 k).mp hk').1 (List.mem_append_right _ hk)
          · intro k
            rw [List.mem_append, hgroup, h2, List.mem_append, hgroup]
            constructor
            · rintro (⟨c, hc, rfl, h4⟩ | ⟨h4, c, hc, rfl, b, hb, h5⟩)
              · exact ⟨fun h5 => hin (hcl c hc a ha h4 h5), c, hc, rfl, a, List.mem_cons_self .., h4⟩
              · exact ⟨fun h6 => h4 (.inl h6), c, hc, rfl, b, List.mem_cons_of_mem _ hb, h5⟩
            · rintro ⟨h4, c, hc, rfl, b, hb, h5⟩
              by_cases hka : key c = key a
              · exact .inl ⟨c, hc, rfl, hka⟩
              · rcases List.mem_cons.mp hb with rfl | hb
                · exact absurd h5 hka
                · refine .inr ⟨?_, c, hc, rfl, b, hb, h5⟩
                  rintro (h6 | ⟨c', hc', h6, h7⟩)
                  · exact h4 h6
                  · rw [hinj c' hc' c hc h6] at h7
                    exact hka h7
          · intro t ht
            rcases List.mem_append.mp ht with ht | ht
            · obtain ⟨k, hk, rfl⟩ := List.mem_map.mp ht
              obtain ⟨c, hc, h4, h5⟩ := (hgroup k).mp hk
              exact ⟨c, hc, a, List.mem_cons_self .., h5, h4, f, hf, rfl⟩
            · obtain ⟨c, hc, b, hb, h⟩ := h3 t ht
              exact ⟨c, hc, b, List.mem_cons_of_mem _ hb, h⟩

end

end BTA.Fit
