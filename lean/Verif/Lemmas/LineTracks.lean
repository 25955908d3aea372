import Verif.Spec.LineTracks
import Verif.Lemmas.AlignTelescope
/-
Lemmas for the straight line fit.
-/
namespace BTA.Line
open BTA.Geo BTA.Dut BTA.AlignTel BTA.Spec

/-! ### Slices -/

theorem split_take {V : Type} (n : Nat) (l : List V) : ∀ k, ((List.range k).map fun i =>
    (l.drop (i * (l.length / n) + min i (l.length % n))).take (l.length / n + if i < l.length % n then 1 else 0)).flatten =
    l.take (k * (l.length / n) + min k (l.length % n)) := by
  intro k
  induction k with
  | zero => simp
  | succ k ih =>
    rw [List.range_succ, List.map_append, List.flatten_append, ih, List.map_singleton, List.flatten_singleton, ← List.take_add]
    congr 1
    rw [add_mul]
    split <;> omega

theorem arraySplit_flatten {V : Type} (n : Nat) (hn : n ≠ 0) (l : List V) : (arraySplit n l).flatten = l := by
  unfold arraySplit
  rw [split_take]
  have h1 : l.length % n < n := Nat.mod_lt _ (by omega)
  have h2 := Nat.div_add_mod l.length n
  rw [min_eq_right h1.le, h2, List.take_length]

theorem lines_eq (g : Config) (hn : g.slices ≠ 0) (cands : List Cand) :
    lines g cands = cands.map fun c => fitLine g.svd (trackHits g c) := by
  unfold lines
  have : ((arraySplit g.slices (cands.map (trackHits g))).map fun s => s.map (fitLine g.svd)).flatten =
      ((arraySplit g.slices (cands.map (trackHits g))).flatten).map (fitLine g.svd) := by
    rw [List.map_flatten]
  rw [this, arraySplit_flatten _ hn, List.map_map]
  rfl

/-! ### Tracks at the DUTs -/

/-- Local coordinates of a point. -/
noncomputable def toLocal (a : Alignment) (p : Vec3) : Vec3 :=
  applyTransformation (globalToLocalMatrix a.x a.y a.z a.alpha a.beta a.gamma) p

theorem toLocal_z (a : Alignment) (p : Vec3) (h : OnPlane (pos a) (dutNormal a.alpha a.beta a.gamma) p) : toLocal a p 2 = 0 := by
  unfold toLocal
  rw [apply_globalToLocal]
  exact (BTA.Props.onPlane_dut a p).mp h

theorem globalToLocal_on (a : Alignment) (p : Vec3) (h : OnPlane (pos a) (dutNormal a.alpha a.beta a.gamma) p) :
    globalToLocal a {} [p] = .ok [toLocal a p] := by
  have hz := toLocal_z a p h
  unfold toLocal at hz
  unfold globalToLocal
  dsimp only [Override.on, Option.getD_none, List.map_cons, List.map_nil]
  rw [if_neg]
  · rfl
  · simp only [List.map_cons, List.map_nil, hz]
    simp [zClose]

theorem atDut_cons (a : Alignment) (l : Vec3 × Vec3) (ls : List (Option (Vec3 × Vec3))) (p : Vec3) (h : crossing l a = .ok p) :
    atDut a (some l :: ls) = match atDut a ls with
      | .error e => .error e
      | .ok es => .ok (some ⟨toLocal a p, Angle.storedSlope a l.2⟩ :: es) := by
  rw [atDut, h]
  dsimp only
  rw [globalToLocal_on a p ((crossing_ok l a p).mp h).2.2]
  rfl

theorem atDut_ok (a : Alignment) : ∀ (ls : List (Option (Vec3 × Vec3))) (es : List (Option Est)), atDut a ls = .ok es →
    es.length = ls.length ∧ ∀ i : Nat, (ls[i]? = some none → es[i]? = some none) ∧
      ∀ l, ls[i]? = some (some l) → ∃ p, crossing l a = .ok p ∧ es[i]? = some (some ⟨toLocal a p, Angle.storedSlope a l.2⟩) := by
  intro ls
  induction ls with
  | nil =>
    intro es h
    rw [atDut] at h
    injection h with h
    subst h
    exact ⟨rfl, fun i => ⟨fun h => by simp at h, fun l h => by simp at h⟩⟩
  | cons o ls ih =>
    intro es h
    cases o with
    | none =>
      rw [atDut] at h
      cases h1 : atDut a ls with
      | error e => rw [h1] at h; cases h
      | ok es1 =>
        rw [h1] at h
        injection h with h
        subst h
        obtain ⟨hl, hi⟩ := ih es1 h1
        refine ⟨by simp [hl], fun i => ?_⟩
        cases i with
        | zero => exact ⟨fun _ => rfl, fun l h => by simp at h⟩
        | succ i => simpa using hi i
    | some l =>
      cases hc : crossing l a with
      | error e =>
        rw [atDut, hc] at h
        cases h
      | ok p =>
        rw [atDut_cons a l ls p hc] at h
        cases h1 : atDut a ls with
        | error e => rw [h1] at h; cases h
        | ok es1 =>
          rw [h1] at h
          injection h with h
          subst h
          obtain ⟨hl, hi⟩ := ih es1 h1
          refine ⟨by simp [hl], fun i => ?_⟩
          cases i with
          | zero =>
            refine ⟨fun h => by simp at h, fun l' h => ?_⟩
            simp only [List.getElem?_cons_zero, Option.some.injEq] at h
            subst h
            exact ⟨p, hc, rfl⟩
          | succ i => simpa using hi i

theorem atDut_error (a : Alignment) (e : Err) : ∀ (ls : List (Option (Vec3 × Vec3))), atDut a ls = .error e ↔
    e = .parallel ∧ ∃ l, some l ∈ ls ∧ dot (dutNormal a.alpha a.beta a.gamma) l.2 = 0 := by
  intro ls
  induction ls with
  | nil => rw [atDut]; constructor <;> intro h
           · cases h
           · obtain ⟨-, l, hl, -⟩ := h; cases hl
  | cons o ls ih =>
    cases o with
    | none =>
      rw [atDut]
      have : (match atDut a ls with
          | .error e => (Except.error e : Except Err (List (Option Est)))
          | .ok es => Except.ok (none :: es)) = Except.error e ↔ atDut a ls = .error e := by
        cases atDut a ls <;> simp
      refine this.trans (ih.trans ?_)
      simp
    | some l =>
      cases hc : crossing l a with
      | error e' =>
        obtain ⟨-, h0⟩ := (crossing_error l a e').mp hc
        rw [atDut, hc]
        dsimp only
        constructor
        · intro h
          injection h with h
          exact ⟨h.symm, l, List.mem_cons_self, h0⟩
        · intro h; rw [h.1]
      | ok p =>
        have h0 := ((crossing_ok l a p).mp hc).1
        rw [atDut_cons a l ls p hc]
        have : (match atDut a ls with
            | .error e => (Except.error e : Except Err (List (Option Est)))
            | .ok es => Except.ok (some ⟨toLocal a p, Angle.storedSlope a l.2⟩ :: es)) = Except.error e ↔ atDut a ls = .error e := by
          cases atDut a ls <;> simp
        refine this.trans (ih.trans ?_)
        constructor
        · rintro ⟨h1, l', hl, h2⟩
          exact ⟨h1, l', List.mem_cons_of_mem _ hl, h2⟩
        · rintro ⟨h1, l', hl, h2⟩
          rcases List.mem_cons.mp hl with h | h
          · injection h with h; subst h; exact absurd h2 h0
          · exact ⟨h1, l', h, h2⟩

theorem estimates_ok (ls : List (Option (Vec3 × Vec3))) : ∀ (duts : List Alignment) (es : List (List (Option Est))),
    estimates ls duts = .ok es → es.length = duts.length ∧ ∀ (d : Nat) (a : Alignment), duts[d]? = some a →
      ∃ l, es[d]? = some l ∧ atDut a ls = .ok l := by
  intro duts
  induction duts with
  | nil =>
    intro es h
    rw [estimates] at h
    injection h with h
    subst h
    exact ⟨rfl, fun d a h => by simp at h⟩
  | cons a as ih =>
    intro es h
    rw [estimates] at h
    cases h1 : atDut a ls with
    | error e => rw [h1] at h; cases h
    | ok l =>
      rw [h1] at h
      dsimp only at h
      cases h2 : estimates ls as with
      | error e => rw [h2] at h; cases h
      | ok rest =>
        rw [h2] at h
        injection h with h
        subst h
        obtain ⟨hl, hi⟩ := ih rest h2
        refine ⟨by simp [hl], fun d b hb => ?_⟩
        cases d with
        | zero =>
          simp only [List.getElem?_cons_zero, Option.some.injEq] at hb
          subst hb
          exact ⟨l, rfl, h1⟩
        | succ d => simpa using hi d b (by simpa using hb)

theorem estimates_error (ls : List (Option (Vec3 × Vec3))) (e : Err) : ∀ (duts : List Alignment), estimates ls duts = .error e ↔
    e = .parallel ∧ ∃ a ∈ duts, ∃ l, some l ∈ ls ∧ dot (dutNormal a.alpha a.beta a.gamma) l.2 = 0 := by
  intro duts
  induction duts with
  | nil =>
    rw [estimates]
    constructor
    · intro h; cases h
    · rintro ⟨-, a, ha, -⟩; cases ha
  | cons a as ih =>
    rw [estimates]
    cases h1 : atDut a ls with
    | error e' =>
      dsimp only
      obtain ⟨rfl, l, hl, h0⟩ := (atDut_error a e' ls).mp h1
      constructor
      · intro h
        injection h with h
        exact ⟨h.symm, a, List.mem_cons_self, l, hl, h0⟩
      · intro h; rw [h.1]
    | ok l =>
      dsimp only
      have : (match estimates ls as with
          | .error e => (Except.error e : Except Err (List (List (Option Est))))
          | .ok rest => Except.ok (l :: rest)) = Except.error e ↔ estimates ls as = .error e := by
        cases estimates ls as <;> simp
      refine this.trans (ih.trans ?_)
      constructor
      · rintro ⟨h, b, hb, h2⟩
        exact ⟨h, b, List.mem_cons_of_mem _ hb, h2⟩
      · rintro ⟨h, b, hb, h2⟩
        rcases List.mem_cons.mp hb with rfl | hb
        · rw [(atDut_error _ _ _).mpr ⟨rfl, h2⟩] at h1
          cases h1
        · exact ⟨h, b, hb, h2⟩

/-- What `fitChunk` gives for a track. -/
theorem fitChunk_ok (g : Config) (hn : g.slices ≠ 0) (cands : List Cand) (ts : List Track) (h : fitChunk g cands = .ok ts) :
    ts.length = cands.length ∧ ∀ (i : Nat) (c : Cand) (t : Track), cands[i]? = some c → ts[i]? = some t →
      (∀ d a, g.duts[d]? = some a → fitLine g.svd (trackHits g c) = none → t.est d = none) ∧
      (∀ d a l, g.duts[d]? = some a → fitLine g.svd (trackHits g c) = some l →
        ∃ p, crossing l a = .ok p ∧ t.est d = some ⟨toLocal a p, Angle.storedSlope a l.2⟩) ∧
      (∀ d, g.duts[d]? = none → t.est d = none) ∧
      t.chi2 = chi2 g c t.est ∧ t.chi2Red = chi2Red g c t.est ∧ t.chi2Prob = 0 := by
  unfold fitChunk at h
  split at h
  · cases h
  · cases he : estimates (lines g cands) g.duts with
    | error e => rw [he] at h; cases h
    | ok es =>
      rw [he] at h
      injection h with h
      subst h
      obtain ⟨hl, hd⟩ := estimates_ok _ _ _ he
      refine ⟨by simp, fun i c t hc ht => ?_⟩
      rw [List.getElem?_map, List.getElem?_zipIdx, hc] at ht
      simp only [Option.map_some, Option.some.injEq, zero_add] at ht
      subst ht
      have hline : (lines g cands)[i]? = some (fitLine g.svd (trackHits g c)) := by
        rw [lines_eq g hn, List.getElem?_map, hc]
        rfl
      refine ⟨fun d a ha hf => ?_, fun d a l ha hf => ?_, fun d ha => ?_, rfl, rfl, rfl⟩
      · obtain ⟨l, hl, hat⟩ := hd d a ha
        have := ((atDut_ok a _ _ hat).2 i).1 (by rw [hline, hf])
        show estOf es i d = none
        unfold estOf
        rw [hl]
        simp [this]
      · obtain ⟨l', hl', hat⟩ := hd d a ha
        obtain ⟨p, hp, he'⟩ := ((atDut_ok a _ _ hat).2 i).2 l (by rw [hline, hf])
        refine ⟨p, hp, ?_⟩
        show estOf es i d = _
        unfold estOf
        rw [hl']
        simp [he']
      · show estOf es i d = none
        unfold estOf
        rw [List.getElem?_eq_none (by rw [hl]; exact List.getElem?_eq_none_iff.mp ha)]
        rfl

theorem fitChunk_error (g : Config) (hn : g.slices ≠ 0) (cands : List Cand) (e : Err) : fitChunk g cands = .error e ↔
    (e = .zNotZero ∧ zBad g cands = true) ∨ (e = .parallel ∧ zBad g cands = false ∧ ∃ a ∈ g.duts, ∃ c ∈ cands, ∃ l,
      fitLine g.svd (trackHits g c) = some l ∧ dot (dutNormal a.alpha a.beta a.gamma) l.2 = 0) := by
  unfold fitChunk
  cases hz : zBad g cands with
  | true =>
    simp only [if_true, and_true]
    constructor
    · intro h; injection h with h; exact .inl h.symm
    · rintro (h | ⟨-, h, -⟩)
      · rw [h]
      · cases h
  | false =>
    have : (match estimates (lines g cands) g.duts with
        | .error e => (Except.error e : Except Err (List Track))
        | .ok es => Except.ok (cands.zipIdx.map fun p =>
          (⟨estOf es p.2, chi2 g p.1 (estOf es p.2), chi2Red g p.1 (estOf es p.2), 0⟩ : Track))) = Except.error e ↔
        estimates (lines g cands) g.duts = .error e := by
      cases estimates (lines g cands) g.duts <;> simp
    simp only [Bool.false_eq_true, if_false, and_false, false_or, true_and]
    refine this.trans ?_
    rw [estimates_error, lines_eq g hn]
    constructor
    · rintro ⟨h, a, ha, l, hl, h0⟩
      obtain ⟨c, hc, hl⟩ := List.mem_map.mp hl
      exact ⟨h, a, ha, c, hc, l, hl, h0⟩
    · rintro ⟨h, a, ha, c, hc, l, hl, h0⟩
      exact ⟨h, a, ha, l, List.mem_map.mpr ⟨c, hc, hl⟩, h0⟩

end BTA.Line
