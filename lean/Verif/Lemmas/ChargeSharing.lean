import Verif.Spec.Simulate
import Mathlib.Algebra.BigOperators.Group.List.Basic
import Mathlib.Algebra.Order.BigOperators.Group.List
import Mathlib.Tactic.Linarith
/-
Lemmas about the digitization.
-/
namespace BTA.Sim
open Spec

variable {K : Type} [Field K] [LinearOrder K]

/-- The hits made in one column: a beginning of the list of rows. -/
theorem csRows_ok {minF charge : K} {room : Nat} {c : Int} {frac : Int → K} : ∀ {rows : List Int} {s s' : CsState K},
    csRows minF charge room c frac rows s = .ok s' → ∃ rs, rs <+: rows ∧ (∀ r ∈ rs, minF ≤ frac r) ∧
      s'.hits = s.hits ++ rs.map fun r => ⟨c, r, frac r * charge⟩ := by
  intro rows
  induction rows with
  | nil =>
    intro s s' h
    cases h
    exact ⟨[], List.nil_prefix, by simp, by simp⟩
  | cons r rs ih =>
    intro s s' h
    unfold csRows at h
    split_ifs at h with h1 h2 h3
    · cases h
      exact ⟨[], List.nil_prefix, by simp, by simp⟩
    · cases h
      refine ⟨[r], ⟨rs, rfl⟩, ?_, rfl⟩
      intro x hx
      rw [List.mem_singleton.mp hx]
      exact not_lt.mp h1
    · obtain ⟨qs, hq1, hq2, hq3⟩ := ih h
      refine ⟨r :: qs, (List.prefix_cons_inj r).mpr hq1, ?_, ?_⟩
      · intro x hx
        rcases List.mem_cons.mp hx with rfl | hx
        · exact not_lt.mp h1
        · exact hq2 x hx
      · rw [hq3]
        simp

/-- Pixels in the order of the loops. -/
def grid (columns rows : List Int) : List (Int × Int) := columns.flatMap fun c => rows.map fun r => (c, r)

theorem csColumns_ok {minF charge : K} {room : Nat} {column row maxRow : Int} {frac : Int → Int → K} :
    ∀ {cols : List Int} {s s' : CsState K}, csColumns minF charge room column row maxRow frac cols s = .ok s' →
      ∃ ps, List.Sublist ps (grid cols (upTo row maxRow ++ downFrom row)) ∧ (∀ p ∈ ps, minF ≤ frac (p.1 - column) (p.2 - row)) ∧
        s'.hits = s.hits ++ ps.map fun p => ⟨p.1, p.2, frac (p.1 - column) (p.2 - row) * charge⟩ := by
  intro cols
  induction cols with
  | nil =>
    intro s s' h
    cases h
    exact ⟨[], List.nil_sublist _, by simp, by simp⟩
  | cons c cs ih =>
    intro s s' h
    unfold csColumns at h
    split_ifs at h with h1
    · cases h
      exact ⟨[], List.nil_sublist _, by simp, by simp⟩
    · split at h
      · cases h
      · next s1 e1 =>
        split at h
        · cases h
        · next s2 e2 =>
          obtain ⟨r1, a1, a2, a3⟩ := csRows_ok e1
          obtain ⟨r2, b1, b2, b3⟩ := csRows_ok e2
          obtain ⟨ps, c1, c2, c3⟩ := ih h
          refine ⟨(r1 ++ r2).map (fun r => (c, r)) ++ ps, ?_, ?_, ?_⟩
          · unfold grid
            rw [List.flatMap_cons]
            exact List.Sublist.append ((List.Sublist.append a1.sublist b1.sublist).map _) c1
          · intro p hp
            rcases List.mem_append.mp hp with hp | hp
            · obtain ⟨r, hr, rfl⟩ := List.mem_map.mp hp
              rcases List.mem_append.mp hr with hr | hr
              · exact a2 r hr
              · exact b2 r hr
            · exact c2 p hp
          · rw [c3, b3, a3]
            simp [Function.comp_def]

/-- The hits made from a seed: different pixels, each with its fraction. -/
theorem createCs_ok {minF charge : K} {room : Nat} {column row maxColumn maxRow : Int} {frac : Int → Int → K} {hits : List (PixelHit K)}
    (h : createCs minF charge room column row maxColumn maxRow frac = .ok hits) :
    ∃ ps, List.Sublist ps (grid (upTo column maxColumn ++ downFrom column) (upTo row maxRow ++ downFrom row)) ∧
      (∀ p ∈ ps, minF ≤ frac (p.1 - column) (p.2 - row)) ∧
      hits = ps.map fun p => ⟨p.1, p.2, frac (p.1 - column) (p.2 - row) * charge⟩ := by
  unfold createCs at h
  split at h
  · cases h
  · next s1 e1 =>
    split at h
    · cases h
    · next s2 e2 =>
      cases h
      obtain ⟨p1, a1, a2, a3⟩ := csColumns_ok e1
      obtain ⟨p2, b1, b2, b3⟩ := csColumns_ok e2
      refine ⟨p1 ++ p2, ?_, ?_, ?_⟩
      · unfold grid at a1 b1 ⊢
        rw [List.flatMap_append]
        exact List.Sublist.append a1 b1
      · intro p hp
        rcases List.mem_append.mp hp with hp | hp
        · exact a2 p hp
        · exact b2 p hp
      · rw [b3, a3]
        simp

theorem mem_upTo {a b x : Int} : x ∈ upTo a b ↔ a ≤ x ∧ x < b := by
  unfold upTo
  rw [List.mem_map]
  constructor
  · rintro ⟨k, hk, rfl⟩
    rw [List.mem_range] at hk
    omega
  · rintro ⟨h1, h2⟩
    exact ⟨(x - a).toNat, by rw [List.mem_range]; omega, by omega⟩

theorem mem_downFrom {a x : Int} : x ∈ downFrom a ↔ 1 ≤ x ∧ x < a := by
  unfold downFrom
  rw [List.mem_map]
  constructor
  · rintro ⟨k, hk, rfl⟩
    rw [List.mem_range] at hk
    omega
  · rintro ⟨h1, h2⟩
    exact ⟨(a - 1 - x).toNat, by rw [List.mem_range]; omega, by omega⟩

theorem nodup_loop (a b : Int) : (upTo a b ++ downFrom a).Nodup := by
  rw [List.nodup_append']
  refine ⟨?_, ?_, ?_⟩
  · unfold upTo
    exact List.nodup_range.map fun x y h => by simpa using h
  · unfold downFrom
    exact List.nodup_range.map fun x y h => by
      have : (a - 1 - (x : Int)) = a - 1 - y := h
      omega
  · intro x h1 h2
    rw [mem_upTo] at h1
    rw [mem_downFrom] at h2
    omega

theorem nodup_grid {a b : List Int} (ha : a.Nodup) (hb : b.Nodup) : (grid a b).Nodup := by
  unfold grid
  rw [List.nodup_flatMap]
  refine ⟨fun c _ => hb.map fun x y h => (Prod.mk.inj h).2, ?_⟩
  refine ha.imp_of_mem fun {x y} _ _ hne => ?_
  intro p h1 h2
  obtain ⟨_, _, rfl⟩ := List.mem_map.mp h1
  obtain ⟨_, _, h3⟩ := List.mem_map.mp h2
  exact hne (Prod.mk.inj h3).1.symm

theorem mem_grid {a b : List Int} {p : Int × Int} : p ∈ grid a b ↔ p.1 ∈ a ∧ p.2 ∈ b := by
  unfold grid
  rw [List.mem_flatMap]
  constructor
  · rintro ⟨c, hc, h⟩
    obtain ⟨r, hr, rfl⟩ := List.mem_map.mp h
    exact ⟨hc, hr⟩
  · rintro ⟨h1, h2⟩
    exact ⟨p.1, h1, List.mem_map.mpr ⟨p.2, h2, rfl⟩⟩

/-- The seed pixel itself, if it is not in the last column or row. -/
theorem createCs_seed {minF charge : K} {room : Nat} {column row maxColumn maxRow : Int} {frac : Int → Int → K} {hits : List (PixelHit K)}
    (h : createCs minF charge room column row maxColumn maxRow frac = .ok hits) (hc : column < maxColumn) (hr : row < maxRow)
    (hf : minF ≤ frac 0 0) (hm : 0 < 1 - minF) : (⟨column, row, frac 0 0 * charge⟩ : PixelHit K) ∈ hits := by
  unfold createCs at h
  split at h
  · cases h
  · next s1 e1 =>
    split at h
    · cases h
    · next s2 e2 =>
      cases h
      obtain ⟨_, _, _, b3⟩ := csColumns_ok e2
      rw [b3]
      refine List.mem_append_left _ ?_
      have hup : ∃ cs, upTo column maxColumn = column :: cs := by
        unfold upTo
        obtain ⟨n, hn⟩ : ∃ n, (maxColumn - column).toNat = n + 1 := ⟨(maxColumn - column).toNat - 1, by omega⟩
        rw [hn, List.range_succ_eq_map]
        exact ⟨_, by simp; rfl⟩
      have hur : ∃ rs, upTo row maxRow = row :: rs := by
        unfold upTo
        obtain ⟨n, hn⟩ : ∃ n, (maxRow - row).toNat = n + 1 := ⟨(maxRow - row).toNat - 1, by omega⟩
        rw [hn, List.range_succ_eq_map]
        exact ⟨_, by simp; rfl⟩
      obtain ⟨cs, hcs⟩ := hup
      obtain ⟨rs, hrs⟩ := hur
      rw [hcs] at e1
      unfold csColumns at e1
      rw [sub_self, if_neg (by
        rintro (h1 | h1)
        · exact absurd hm (not_lt.mpr h1)
        · exact absurd hf (not_le.mpr h1))] at e1
      split at e1
      · cases e1
      · next t1 f1 =>
        split at e1
        · cases e1
        · next t2 f2 =>
          obtain ⟨_, _, _, g1⟩ := csColumns_ok e1
          obtain ⟨_, _, _, g2⟩ := csRows_ok f2
          rw [g1]
          refine List.mem_append_left _ ?_
          rw [g2]
          refine List.mem_append_left _ ?_
          rw [hrs] at f1
          unfold csRows at f1
          dsimp only at f1
          rw [sub_self, if_neg (not_lt.mpr hf)] at f1
          split_ifs at f1
          · cases f1
            simp
          · obtain ⟨_, _, _, g3⟩ := csRows_ok f1
            rw [g3]
            simp

/-! ### The other steps keep the order of the events -/

theorem addCs_events {minF : K} {mc mr : Int} {frac : K → K → Int → Int → K} {size : Nat} : ∀ {ss : List (Seed K)} {used : Nat}
    {l : List (Int × PixelHit K)}, addCs minF mc mr frac size used ss = .ok l →
      (∀ p ∈ l, ∃ s ∈ ss, p.1 = s.event) ∧ ((ss.map Seed.event).Pairwise (· ≤ ·) → (l.map Prod.fst).Pairwise (· ≤ ·)) := by
  intro ss
  induction ss with
  | nil =>
    intro used l h
    cases h
    simp
  | cons s ss ih =>
    intro used l h
    unfold addCs at h
    split at h
    · cases h
    · next hits e1 =>
      split at h
      · cases h
      · next rest e2 =>
        cases h
        obtain ⟨i1, i2⟩ := ih e2
        constructor
        · intro p hp
          rcases List.mem_append.mp hp with hp | hp
          · obtain ⟨q, _, rfl⟩ := List.mem_map.mp hp
            exact ⟨s, List.mem_cons_self .., rfl⟩
          · obtain ⟨t, ht, h2⟩ := i1 p hp
            exact ⟨t, List.mem_cons_of_mem _ ht, h2⟩
        · intro hs
          rw [List.map_cons, List.pairwise_cons] at hs
          rw [List.map_append, List.pairwise_append]
          refine ⟨?_, i2 hs.2, ?_⟩
          · rw [List.map_map]
            refine List.pairwise_map.mpr (List.pairwise_of_forall fun _ _ => le_refl _)
          · intro a ha b hb
            obtain ⟨_, h3, rfl⟩ := List.mem_map.mp ha
            obtain ⟨_, _, rfl⟩ := List.mem_map.mp h3
            obtain ⟨p, h4, rfl⟩ := List.mem_map.mp hb
            obtain ⟨t, ht, h5⟩ := i1 p h4
            rw [h5]
            exact hs.1 _ (List.mem_map.mpr ⟨t, ht, rfl⟩)

/-- Hits in the order of the events. -/
def Ordered (l : List (Digit K)) : Prop := (l.map Digit.event).Pairwise (· ≤ ·)

theorem inefficient_sublist [FloorRing K] (r : Response K) (f : List Nat → List Nat) (l : List (Digit K)) :
    List.Sublist (inefficient r f l) l := by
  unfold inefficient
  split_ifs
  · have := (List.filter_sublist (p := fun p : Digit K × Nat =>
      decide (p.2 ∉ (f (List.range l.length)).take ⌊(l.length : K) * (1 - r.efficiency)⌋.toNat)) (l := l.zipIdx)).map Prod.fst
    rwa [List.zipIdx_map_fst] at this
  · exact List.Sublist.refl _

/-- Noise changes nothing but the charge. -/
theorem addNoise_same {V : Type} (r : Response K) (f : Nat → K) (l : List (Digit K)) (g : Digit K → V)
    (hg : ∀ d c, g { d with charge := c } = g d) : (addNoise r f l).map g = l.map g := by
  unfold addNoise
  split_ifs
  · rw [List.map_map]
    have : (g ∘ fun p : Digit K × Nat => { p.1 with charge := p.1.charge + (0 + r.noise * f p.2) }) = g ∘ Prod.fst := by
      funext p
      exact hg _ _
    rw [this, ← List.map_map, List.zipIdx_map_fst]
  · rfl

theorem aboveThreshold_sublist (r : Response K) (l : List (Digit K)) : List.Sublist (aboveThreshold r l) l := by
  unfold aboveThreshold
  split_ifs
  · exact List.filter_sublist
  · exact List.Sublist.refl _

theorem seeds_events [FloorRing K] (r : Response K) (charge : Nat → K) (hits : List (TrackHit K)) :
    (seeds r charge hits).map Seed.event = hits.map TrackHit.event := by
  unfold seeds
  rw [List.map_map]
  have : (Seed.event ∘ fun p : TrackHit K × Nat => (⟨p.1.event, ⟨pixelOf p.1.x r.sizeX, pixelOf p.1.y r.sizeY, charge p.2⟩,
      p.1.x - ((pixelOf p.1.x r.sizeX : K) - 1 / 2) * r.sizeX, p.1.y - ((pixelOf p.1.y r.sizeY : K) - 1 / 2) * r.sizeY⟩ : Seed K)) =
      TrackHit.event ∘ Prod.fst := rfl
  rw [this, ← List.map_map, List.zipIdx_map_fst]

theorem positions_events [IsStrictOrderedRing K] [FloorRing K] {minF : K} {disc sharing : Bool} {frac : K → K → Int → Int → K} {r : Response K} {charge : Nat → K}
    {hits : List (TrackHit K)} {l : List (Digit K)} (h : positions minF disc sharing frac r charge hits = .ok l) :
    (∀ d ∈ l, ∃ t ∈ hits, d.event = t.event) ∧ ((hits.map TrackHit.event).Pairwise (· ≤ ·) → Ordered l) ∧
      (disc = true → ∀ d ∈ l, (∃ c : Int, d.column = c ∧ 1 ≤ c ∧ c ≤ r.columns) ∧ ∃ w : Int, d.row = w ∧ 1 ≤ w ∧ w ≤ r.rows) := by
  unfold positions at h
  cases disc with
  | false =>
    simp only [Bool.false_eq_true, if_false] at h
    cases h
    have hmap : (hits.zipIdx.map fun p => (⟨p.1.event, p.1.x, p.1.y, charge p.2⟩ : Digit K)).map Digit.event = hits.map TrackHit.event := by
      rw [List.map_map]
      show hits.zipIdx.map (TrackHit.event ∘ Prod.fst) = _
      rw [← List.map_map, List.zipIdx_map_fst]
    refine ⟨fun d hd => ?_, fun ho => ?_, fun h => by cases h⟩
    · have h1 := List.mem_map_of_mem (f := Digit.event) (List.mem_of_mem_filter hd)
      rw [hmap] at h1
      obtain ⟨t, ht, h2⟩ := List.mem_map.mp h1
      exact ⟨t, ht, h2.symm⟩
    · unfold Ordered
      rw [← hmap] at ho
      exact ho.sublist (List.filter_sublist.map _)
  | true =>
    simp only [if_true] at h
    have hin : ∀ (q : List (Int × PixelHit K)), ∀ d ∈ (q.map toDigit).filter (inside r),
        (∃ c : Int, d.column = c ∧ 1 ≤ c ∧ c ≤ r.columns) ∧ ∃ w : Int, d.row = w ∧ 1 ≤ w ∧ w ≤ r.rows := by
      intro q d hd
      obtain ⟨h1, h2⟩ := List.mem_filter.mp hd
      obtain ⟨p, _, rfl⟩ := List.mem_map.mp h1
      unfold inside toDigit at h2
      simp only [Bool.and_eq_true, decide_eq_true_eq] at h2
      obtain ⟨⟨a1, a2⟩, a3, a4⟩ := h2
      exact ⟨⟨p.2.column, rfl, by exact_mod_cast Int.cast_pos.mp a1, Int.cast_le.mp a2⟩,
        p.2.row, rfl, by exact_mod_cast Int.cast_pos.mp a3, Int.cast_le.mp a4⟩
    have key : ∀ (q : List (Int × PixelHit K)), (∀ p ∈ q, ∃ s ∈ seeds r charge hits, p.1 = s.event) →
        (((seeds r charge hits).map Seed.event).Pairwise (· ≤ ·) → (q.map Prod.fst).Pairwise (· ≤ ·)) →
        (∀ d ∈ (q.map toDigit).filter (inside r), ∃ t ∈ hits, d.event = t.event) ∧
          ((hits.map TrackHit.event).Pairwise (· ≤ ·) → Ordered ((q.map toDigit).filter (inside r))) := by
      intro q h1 h2
      constructor
      · intro d hd
        obtain ⟨p, hp, rfl⟩ := List.mem_map.mp (List.mem_of_mem_filter hd)
        obtain ⟨s, hs, h3⟩ := h1 p hp
        have h4 := List.mem_map_of_mem (f := Seed.event) hs
        rw [seeds_events] at h4
        obtain ⟨t, ht, h5⟩ := List.mem_map.mp h4
        exact ⟨t, ht, h3.trans h5.symm⟩
      · intro ho
        rw [← seeds_events r charge] at ho
        have h3 := h2 ho
        unfold Ordered
        have h4 : (q.map toDigit).map Digit.event = q.map Prod.fst := by
          rw [List.map_map]
          rfl
        rw [← h4] at h3
        exact h3.sublist (List.filter_sublist.map _)
    cases sharing with
    | true =>
      simp only [if_true] at h
      split at h
      · cases h
      · next q e =>
        cases h
        obtain ⟨k1, k2⟩ := addCs_events e
        obtain ⟨k3, k4⟩ := key q k1 k2
        exact ⟨k3, k4, fun _ => hin q⟩
    | false =>
      simp only [Bool.false_eq_true, if_false] at h
      cases h
      have e : (seeds r charge hits).map (fun s => toDigit (s.event, s.hit)) =
          ((seeds r charge hits).map fun s => (s.event, s.hit)).map toDigit := by
        rw [List.map_map]
        rfl
      rw [e]
      obtain ⟨k3, k4⟩ := key ((seeds r charge hits).map fun s => (s.event, s.hit)) (by
        intro p hp
        obtain ⟨s, hs, rfl⟩ := List.mem_map.mp hp
        exact ⟨s, hs, rfl⟩) (by
        intro h1
        rw [List.map_map]
        exact h1)
      exact ⟨k3, k4, fun _ => hin _⟩

/-- The digitized hits of a DUT. -/
theorem digitize_ok [IsStrictOrderedRing K] [FloorRing K] {minF : K} {disc sharing : Bool} {frac : K → K → Int → Int → K} {r : Response K}
    {g : Random K} {hits : List (TrackHit K)} {l : List (Digit K)} (h : digitize minF disc sharing frac r g hits = .ok l) :
    (∀ d ∈ l, ∃ t ∈ hits, d.event = t.event) ∧ ((hits.map TrackHit.event).Pairwise (· ≤ ·) → Ordered l) ∧
      (disc = true → ∀ d ∈ l, (∃ c : Int, d.column = c ∧ 1 ≤ c ∧ c ≤ r.columns) ∧ ∃ w : Int, d.row = w ∧ 1 ≤ w ∧ w ≤ r.rows) := by
  unfold digitize at h
  split at h
  · cases h
  · next p e =>
    cases h
    obtain ⟨k1, k2, k3⟩ := positions_events e
    have sub : List.Sublist (aboveThreshold r (addNoise r g.noise (inefficient r g.shuffle p))) (addNoise r g.noise (inefficient r g.shuffle p)) :=
      aboveThreshold_sublist _ _
    have back : ∀ d ∈ aboveThreshold r (addNoise r g.noise (inefficient r g.shuffle p)), ∃ d' ∈ p,
        (d.event, d.column, d.row) = (d'.event, d'.column, d'.row) := by
      intro d hd
      have h1 := List.mem_map_of_mem (f := fun d : Digit K => (d.event, d.column, d.row)) (sub.subset hd)
      rw [addNoise_same r g.noise _ (fun d : Digit K => (d.event, d.column, d.row)) (fun _ _ => rfl)] at h1
      obtain ⟨d', h2, h3⟩ := List.mem_map.mp h1
      exact ⟨d', (inefficient_sublist r g.shuffle p).subset h2, h3.symm⟩
    refine ⟨fun d hd => ?_, fun ho => ?_, fun hdisc d hd => ?_⟩
    · obtain ⟨d', h1, h2⟩ := back d hd
      obtain ⟨t, ht, h3⟩ := k1 d' h1
      exact ⟨t, ht, (Prod.mk.inj h2).1.trans h3⟩
    · have h1 := k2 ho
      unfold Ordered at h1 ⊢
      have h2 := (sub.map Digit.event)
      rw [addNoise_same r g.noise _ Digit.event (fun _ _ => rfl)] at h2
      exact h1.sublist (h2.trans ((inefficient_sublist r g.shuffle p).map _))
    · obtain ⟨d', h1, h2⟩ := back d hd
      obtain ⟨_, h4⟩ := Prod.mk.inj h2
      obtain ⟨h5, h6⟩ := Prod.mk.inj h4
      rw [h5, h6]
      exact k3 hdisc d' h1

end BTA.Sim
