import Verif.Model.RegionHist
import Verif.Props.ArrayTools
import Mathlib.Tactic.Linarith
import Mathlib.Tactic.FieldSimp
import Mathlib.Algebra.Order.Floor.Ring
/- Lemmas for Verif.Props.RegionHist. -/
namespace BTA.RegionHist
open BTA.HistStat

/-! ### bincount -/

theorem foldl_upper (vs : List Int) (m : Nat) : vs.foldl (fun m v => max m (v.toNat + 1)) m = max m (upper vs) := by
  unfold upper
  induction vs generalizing m with
  | nil => simp
  | cons v vs ih =>
    rw [List.foldl_cons, List.foldl_cons, ih, ih (max 0 _)]
    omega

theorem upper_append (a b : List Int) : upper (a ++ b) = max (upper a) (upper b) := by
  conv_lhs => unfold upper
  rw [List.foldl_append, foldl_upper]
  rfl

theorem upper_cons (v : Int) (vs : List Int) : upper (v :: vs) = max (v.toNat + 1) (upper vs) := by
  conv_lhs => unfold upper
  rw [List.foldl_cons, foldl_upper]
  omega

theorem lt_upper {v : Int} {vs : List Int} (h : v ∈ vs) : v.toNat < upper vs := by
  induction vs with
  | nil => exact absurd h (by simp)
  | cons a vs ih =>
    rw [upper_cons]
    rcases List.mem_cons.mp h with h | h
    · subst h; omega
    · have := ih h; omega

theorem count_ge_upper {vs : List Int} (hn : ∀ v ∈ vs, 0 ≤ v) {i : Nat} (hi : upper vs ≤ i) : (vs.countP fun v => decide (v = (i : Int))) = 0 := by
  rw [List.countP_eq_zero]
  intro v hv
  have h1 := lt_upper hv
  have h2 := hn v hv
  simp only [decide_eq_true_eq]
  omega

theorem bincount_some {vs : List Int} (h : ∀ v ∈ vs, 0 ≤ v) :
    bincount vs = some ((List.range (upper vs)).map fun i : Nat => vs.countP fun v => decide (v = (i : Int))) := by
  unfold bincount
  rw [if_neg]
  rw [List.any_eq_true]
  rintro ⟨v, hv, h'⟩
  have := h v hv
  simp only [decide_eq_true_eq] at h'
  omega

theorem bincount_none_iff (vs : List Int) : bincount vs = none ↔ ∃ v ∈ vs, v < 0 := by
  unfold bincount
  split
  · rename_i h
    simpa [List.any_eq_true] using h
  · rename_i h
    simpa [List.any_eq_true] using h

theorem resize_get (n : Nat) (l : List Nat) (hl : l.length ≤ n) (i : Nat) : (resize n l)[i]? = if i < n then some (l[i]?.getD 0) else none := by
  unfold resize
  rw [List.take_of_length_le hl]
  by_cases h1 : i < l.length
  · rw [List.getElem?_append_left h1, if_pos (by omega), List.getElem?_eq_getElem h1]; rfl
  · rw [List.getElem?_append_right (by omega), List.getElem?_replicate, List.getElem?_eq_none (by omega : l.length ≤ i)]
    by_cases h2 : i < n
    · rw [if_pos (by omega), if_pos h2]; rfl
    · rw [if_neg (by omega), if_neg h2]

theorem bin_get (vs : List Int) (hn : ∀ v ∈ vs, 0 ≤ v) (i : Nat) :
    (((List.range (upper vs)).map fun i : Nat => vs.countP fun v => decide (v = (i : Int)))[i]?).getD 0 = vs.countP fun v => decide (v = (i : Int)) := by
  by_cases h : i < upper vs
  · rw [List.getElem?_map, List.getElem?_range h]; rfl
  · rw [List.getElem?_eq_none (by simpa using h), count_ge_upper hn (by omega)]; rfl

theorem addHist_bincount {a b : List Int} (ha : ∀ v ∈ a, 0 ≤ v) (hb : ∀ v ∈ b, 0 ≤ v) {x y : List Nat} (hx : bincount a = some x)
    (hy : bincount b = some y) : some (addHist x y) = bincount (a ++ b) := by
  have hab : ∀ v ∈ a ++ b, 0 ≤ v := by
    intro v hv
    rcases List.mem_append.mp hv with h | h
    · exact ha v h
    · exact hb v h
  rw [bincount_some ha] at hx
  rw [bincount_some hb] at hy
  rw [bincount_some hab]
  congr 1
  have hxe := Option.some.inj hx
  have hye := Option.some.inj hy
  have hxl : x.length = upper a := by rw [← hxe]; simp
  have hyl : y.length = upper b := by rw [← hye]; simp
  have hxg : ∀ i : Nat, (x[i]?).getD 0 = a.countP fun v => decide (v = (i : Int)) := by intro i; rw [← hxe]; exact bin_get a ha i
  have hyg : ∀ i : Nat, (y[i]?).getD 0 = b.countP fun v => decide (v = (i : Int)) := by intro i; rw [← hye]; exact bin_get b hb i
  apply List.ext_getElem?
  intro i
  rw [List.getElem?_map, upper_append]
  have hr : (List.range (max (upper a) (upper b)))[i]? = if i < max (upper a) (upper b) then some i else none := by
    by_cases h : i < max (upper a) (upper b)
    · rw [List.getElem?_range h, if_pos h]
    · rw [if_neg h, List.getElem?_eq_none (by simpa using h)]
  rw [hr]
  unfold addHist
  split
  · rename_i hlt
    rw [List.getElem?_zipWith, resize_get _ _ (by omega)]
    by_cases hi : i < y.length
    · rw [if_pos hi, if_pos (by omega)]
      have hy' : y[i]? = some (y[i]?.getD 0) := by rw [List.getElem?_eq_getElem hi]; rfl
      rw [hy']
      simp only [Option.map_some, hxg, hyg, List.countP_append]
    · rw [if_neg hi, if_neg (by omega)]; rfl
  · rename_i hlt
    rw [List.getElem?_zipWith, resize_get _ _ (by omega)]
    by_cases hi : i < x.length
    · rw [if_pos hi, if_pos (by omega)]
      have hx' : x[i]? = some (x[i]?.getD 0) := by rw [List.getElem?_eq_getElem hi]; rfl
      rw [hx']
      simp only [Option.map_some, hxg, hyg, List.countP_append]
    · rw [if_neg hi, if_neg (by omega), List.getElem?_eq_none (by omega)]; rfl

theorem nonneg_of_bincount {a : List Int} {x : List Nat} (h : bincount a = some x) : ∀ v ∈ a, 0 ≤ v := by
  intro v hv
  by_contra hc
  have : bincount a = none := (bincount_none_iff a).mpr ⟨v, hv, by omega⟩
  rw [this] at h
  exact absurd h (by simp)

theorem accumulate_some (a : List Int) (x : List Nat) (hx : bincount a = some x) (cs : List (List Int)) :
    accumulate (some x) cs = (bincount (a ++ cs.flatten)).map some := by
  induction cs generalizing a x with
  | nil => simp [accumulate, hx]
  | cons c cs ih =>
    unfold accumulate
    cases hc : bincount c with
    | none =>
      obtain ⟨v, hv, hneg⟩ := (bincount_none_iff c).mp hc
      have : bincount (a ++ (c :: cs).flatten) = none := (bincount_none_iff _).mpr ⟨v, by simp [hv], hneg⟩
      rw [this]; rfl
    | some y =>
      dsimp only
      have h := addHist_bincount (nonneg_of_bincount hx) (nonneg_of_bincount hc) hx hc
      rw [ih (a ++ c) (addHist x y) h.symm]
      simp

theorem accumulate_eq (c : List Int) (cs : List (List Int)) : accumulate none (c :: cs) = (bincount (c :: cs).flatten).map some := by
  unfold accumulate
  cases hc : bincount c with
  | none =>
    obtain ⟨v, hv, hneg⟩ := (bincount_none_iff c).mp hc
    have : bincount (c :: cs).flatten = none := (bincount_none_iff _).mpr ⟨v, by simp [hv], hneg⟩
    rw [this]; rfl
  | some y =>
    dsimp only
    rw [accumulate_some c y hc cs]
    simp

/-! ### Hits of pixels -/

/-- A hit belongs to a cluster of one of the tracks. -/
def Belongs (tracks : List VTrack) (h : CHit) : Prop := ∃ t ∈ tracks, t.key = h.key

instance (tracks : List VTrack) (h : CHit) : Decidable (Belongs tracks h) := by unfold Belongs; infer_instance

section
variable {sorter : List Nat} {hits : List CHit} {tracks : List VTrack}

/-- The pairs of a hit and a track with the same cluster. -/
theorem sel_spec (hne : tracks ≠ []) (hs : BTA.Props.IsArgsort (tracks.map VTrack.key) sorter) :
    (∀ p ∈ in1dIndex (hits.map CHit.key) (tracks.map VTrack.key) (some sorter),
      ∃ h t, hits[p.1]? = some h ∧ tracks[p.2]? = some t ∧ t.key = h.key) ∧
    (in1dIndex (hits.map CHit.key) (tracks.map VTrack.key) (some sorter)).map Prod.fst =
      (List.range hits.length).filter fun i => hits[i]?.any fun h => decide (Belongs tracks h) := by
  have hne' : tracks.map VTrack.key ≠ [] := by simpa using hne
  obtain ⟨h1, h2⟩ := BTA.Props.C50_in1d_index (hits.map CHit.key) (tracks.map VTrack.key) (some sorter) hne' hs
  constructor
  · intro p hp
    obtain ⟨v, hv1, hv2⟩ := h2 p hp
    rw [List.getElem?_map, Option.map_eq_some_iff] at hv1 hv2
    obtain ⟨h, hh, hk⟩ := hv1
    obtain ⟨t, ht, hk'⟩ := hv2
    exact ⟨h, t, hh, ht, by rw [hk, hk']⟩
  · rw [h1, List.length_map]
    apply List.filter_congr
    intro i hi0
    rw [List.mem_range] at hi0
    rw [Bool.eq_iff_iff, decide_eq_true_eq, Option.any_eq_true]
    simp only [decide_eq_true_eq]
    constructor
    · rintro ⟨v, hv, hi⟩
      rw [List.getElem?_map, Option.map_eq_some_iff] at hi
      obtain ⟨h, hh, hk⟩ := hi
      obtain ⟨t, ht, hk'⟩ := List.mem_map.mp hv
      exact ⟨h, hh, t, ht, by rw [hk, hk']⟩
    · rintro ⟨h, hh, t, ht, hk⟩
      exact ⟨t.key, List.mem_map.mpr ⟨t, ht, rfl⟩, by rw [List.getElem?_map, hh, Option.map_some, hk]⟩

/-- Counting positions is counting rows. -/
theorem countP_range {α : Type} (l : List α) (p : α → Bool) (q : Nat → Bool) (h : ∀ (i : Nat) (a : α), l[i]? = some a → q i = p a) :
    (List.range l.length).countP q = l.countP p := by
  induction l generalizing q with
  | nil => rfl
  | cons a l ih =>
    rw [List.length_cons, List.range_succ_eq_map, List.countP_cons, List.countP_cons, List.countP_map]
    rw [ih (q ∘ Nat.succ) (by intro i b hb; exact h (i + 1) b (by simpa using hb)), h 0 a (by simp)]

theorem sel_length (hne : tracks ≠ []) (hs : BTA.Props.IsArgsort (tracks.map VTrack.key) sorter) :
    (in1dIndex (hits.map CHit.key) (tracks.map VTrack.key) (some sorter)).length = hits.countP fun h => decide (Belongs tracks h) := by
  have e : ((in1dIndex (hits.map CHit.key) (tracks.map VTrack.key) (some sorter)).map Prod.fst).length =
    (in1dIndex (hits.map CHit.key) (tracks.map VTrack.key) (some sorter)).length := List.length_map _
  rw [← e, (sel_spec hne hs).2, ← List.countP_eq_length_filter]
  apply countP_range
  intro i h hi
  rw [hi]
  rfl

theorem filterMap_length_of_some {α β : Type} (l : List α) (f : α → Option β) (h : ∀ a ∈ l, (f a).isSome) : (l.filterMap f).length = l.length := by
  induction l with
  | nil => rfl
  | cons a l ih =>
    obtain ⟨b, hb⟩ := Option.isSome_iff_exists.mp (h a (by simp))
    rw [List.filterMap_cons_some hb, List.length_cons, List.length_cons, ih fun a ha => h a (by simp [ha])]

theorem hits_length (hne : tracks ≠ []) (hs : BTA.Props.IsArgsort (tracks.map VTrack.key) sorter) :
    ((in1dIndex (hits.map CHit.key) (tracks.map VTrack.key) (some sorter)).filterMap fun p => hits[p.1]?).length =
      hits.countP fun h => decide (Belongs tracks h) := by
  rw [filterMap_length_of_some, sel_length hne hs]
  intro p hp
  obtain ⟨h, t, h1, -, -⟩ := (sel_spec hne hs).1 p hp
  rw [h1]; rfl

end

theorem repeatedBins_ge {tracks : List VTrack} (l : List (Nat × Nat)) (h : ∀ p ∈ l, ∃ t, tracks[p.2]? = some t ∧ 1 ≤ t.nHits) :
    l.length ≤ (repeatedBins tracks l).length := by
  induction l with
  | nil => simp [repeatedBins]
  | cons p l ih =>
    obtain ⟨t, ht, h1⟩ := h p (by simp)
    have ih' := ih fun q hq => h q (by simp [hq])
    unfold repeatedBins at *
    rw [List.flatMap_cons, List.length_append, ht]
    simp only [List.length_replicate, List.length_cons]
    omega

theorem repeatedBins_gt {tracks : List VTrack} (l : List (Nat × Nat)) (h : ∀ p ∈ l, ∃ t, tracks[p.2]? = some t ∧ 1 ≤ t.nHits)
    (h2 : ∃ p ∈ l, ∃ t, tracks[p.2]? = some t ∧ 2 ≤ t.nHits) : l.length < (repeatedBins tracks l).length := by
  induction l with
  | nil => obtain ⟨p, hp, -⟩ := h2; exact absurd hp (by simp)
  | cons p l ih =>
    have hge := repeatedBins_ge l fun q hq => h q (by simp [hq])
    obtain ⟨t, ht, h1⟩ := h p (by simp)
    obtain ⟨q, hq, t', ht', h2'⟩ := h2
    rcases List.mem_cons.mp hq with rfl | hq
    · rw [ht] at ht'
      cases ht'
      unfold repeatedBins at *
      rw [List.flatMap_cons, List.length_append, ht]
      simp only [List.length_replicate, List.length_cons]
      omega
    · have := ih (fun q hq => h q (by simp [hq])) ⟨q, hq, t', ht', h2'⟩
      unfold repeatedBins at *
      rw [List.flatMap_cons, List.length_append, ht]
      simp only [List.length_replicate, List.length_cons]
      omega

/-- Hit and bin of a pair. -/
def pairOf (hits : List CHit) (tracks : List VTrack) (p : Nat × Nat) : Option (CHit × Nat) :=
  match hits[p.1]?, tracks[p.2]? with
  | some x, some t => some (x, t.bin)
  | _, _ => none

/-- With one hit for every cluster: hit and bin of the track. -/
theorem zip_one {hits : List CHit} {tracks : List VTrack} (l : List (Nat × Nat))
    (h : ∀ p ∈ l, ∃ x t, hits[p.1]? = some x ∧ tracks[p.2]? = some t ∧ t.nHits = 1) :
    (l.filterMap fun p => hits[p.1]?).length = (repeatedBins tracks l).length ∧
    (l.filterMap fun p => hits[p.1]?).zip (repeatedBins tracks l) =
      l.filterMap (pairOf hits tracks) := by
  induction l with
  | nil => simp [repeatedBins]
  | cons p l ih =>
    obtain ⟨x, t, hx, ht, h1⟩ := h p (by simp)
    obtain ⟨ih1, ih2⟩ := ih fun q hq => h q (by simp [hq])
    have e1 : (p :: l).filterMap (fun p => hits[p.1]?) = x :: l.filterMap fun p => hits[p.1]? := by rw [List.filterMap_cons, hx]
    have e2 : repeatedBins tracks (p :: l) = t.bin :: repeatedBins tracks l := by
      unfold repeatedBins
      rw [List.flatMap_cons, ht]
      dsimp only
      rw [h1]
      rfl
    have e3 : (p :: l).filterMap (pairOf hits tracks) =
        (x, t.bin) :: l.filterMap (pairOf hits tracks) := by
      have : pairOf hits tracks p = some (x, t.bin) := by unfold pairOf; rw [hx, ht]
      rw [List.filterMap_cons_some this]
    rw [e1, e2, e3, List.length_cons, List.length_cons, ih1, List.zip_cons_cons, ih2]
    exact ⟨rfl, rfl⟩

end BTA.RegionHist
