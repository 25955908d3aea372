import Verif.Lemmas.Digitize
/-
Lemmas about clusters made by charge sharing.
-/
namespace BTA.Sim
open Spec

variable {K : Type} [Field K] [LinearOrder K]

/-- The hits of all seeds: one group for each seed. -/
theorem addCs_groups {minF : K} {mc mr : Int} {frac : K → K → Int → Int → K} {size : Nat} : ∀ {ss : List (Seed K)} {used : Nat}
    {l : List (Int × PixelHit K)}, addCs minF mc mr frac size used ss = .ok l →
      ∃ gs : List (List (PixelHit K)), List.Forall₂ (fun s g => ∃ room, createCs minF s.hit.charge room s.hit.column s.hit.row mc mr
        (frac s.relX s.relY) = .ok g) ss gs ∧ l = ((ss.zip gs).map fun p => p.2.map fun h => (p.1.event, h)).flatten := by
  intro ss
  induction ss with
  | nil =>
    intro used l h
    cases h
    exact ⟨[], List.Forall₂.nil, rfl⟩
  | cons s ss ih =>
    intro used l h
    unfold addCs at h
    split at h
    · cases h
    · next hits e1 =>
      split at h
      · cases h
      · next rest e2 =>
        cases h
        obtain ⟨gs, h1, h2⟩ := ih e2
        exact ⟨hits :: gs, List.Forall₂.cons ⟨_, e1⟩ h1, by rw [h2]; rfl⟩

theorem isCluster_sublist [IsStrictOrderedRing K] {e : Int} {q : K} (hq : 0 ≤ q) {a b : List (Digit K)} (h : IsCluster e q b)
    (hs : List.Sublist a b) : IsCluster e q a := by
  refine ⟨fun d hd => h.event d (hs.subset hd), h.pixels.sublist (hs.map _), fun d hd => h.share d (hs.subset hd), ?_⟩
  refine le_trans ?_ h.total
  refine (hs.map Digit.charge).sum_le_sum fun x hx => ?_
  obtain ⟨d, hd, rfl⟩ := List.mem_map.mp hx
  exact le_trans (div_nonneg hq (by norm_num)) (h.share d hd)

theorem cluster_of_createCs [IsStrictOrderedRing K] {charge : K} {room : Nat} {column row maxColumn maxRow : Int}
    {frac : Int → Int → K} {hits : List (PixelHit K)} (h : createCs (1 / 100) charge room column row maxColumn maxRow frac = .ok hits)
    (hc : 0 ≤ charge) (hs : IsShare frac) (e : Int) : IsCluster e charge ((hits.map fun h => (e, h)).map toDigit) := by
  have ht := createCs_total h hc hs
  obtain ⟨ps, h1, h2, rfl⟩ := createCs_ok h
  have hn : ps.Nodup := (nodup_grid (nodup_loop column maxColumn) (nodup_loop row maxRow)).sublist h1
  refine ⟨?_, ?_, ?_, ?_⟩
  · intro d hd
    obtain ⟨p, hp, rfl⟩ := List.mem_map.mp hd
    obtain ⟨q, _, rfl⟩ := List.mem_map.mp hp
    rfl
  · rw [List.map_map, List.map_map, List.map_map]
    refine hn.map fun a b hab => ?_
    obtain ⟨e1, e2⟩ := Prod.mk.inj hab
    exact Prod.ext (Int.cast_injective e1) (Int.cast_injective e2)
  · intro d hd
    obtain ⟨p, hp, rfl⟩ := List.mem_map.mp hd
    obtain ⟨q, hq, rfl⟩ := List.mem_map.mp hp
    obtain ⟨r, hr, rfl⟩ := List.mem_map.mp hq
    show charge / 100 ≤ frac (r.1 - column) (r.2 - row) * charge
    have := mul_le_mul_of_nonneg_right (h2 r hr) hc
    rw [div_eq_inv_mul]
    rw [one_div] at this
    exact this
  · rw [List.map_map]
    unfold totalCharge at ht
    have : (Digit.charge ∘ toDigit) ∘ (fun h : PixelHit K => (e, h)) = PixelHit.charge := rfl
    rw [List.map_map, this]
    exact ht

theorem noiseless (r : Response K) (f : Nat → K) (l : List (Digit K)) (h : r.noise = 0) : addNoise r f l = l := by
  unfold addNoise
  rw [if_neg (not_not.mpr h)]

/-- A sublist of groups can be grouped. -/
theorem sublist_groups {α : Type} : ∀ {L : List (List α)} {l : List α}, List.Sublist l L.flatten →
    ∃ L', List.Forall₂ List.Sublist L' L ∧ l = L'.flatten := by
  intro L
  induction L with
  | nil =>
    intro l h
    rw [List.flatten_nil, List.sublist_nil] at h
    exact ⟨[], List.Forall₂.nil, h⟩
  | cons a L ih =>
    intro l h
    rw [List.flatten_cons] at h
    obtain ⟨l1, l2, rfl, h1, h2⟩ := List.sublist_append_iff.mp h
    obtain ⟨L', h3, h4⟩ := ih h2
    exact ⟨l1 :: L', List.Forall₂.cons h1 h3, by rw [h4]; rfl⟩

/-- All clusters. -/
theorem addCs_clusters [IsStrictOrderedRing K] {mc mr : Int} {frac : K → K → Int → Int → K} {size : Nat} {ss : List (Seed K)} {used : Nat}
    {l : List (Int × PixelHit K)} (h : addCs (1 / 100) mc mr frac size used ss = .ok l) (hc : ∀ s ∈ ss, 0 ≤ s.hit.charge)
    (hs : ∀ x y, IsShare (frac x y)) :
    ∃ gs : List (List (Digit K)), List.Forall₂ (fun s g => IsCluster s.event s.hit.charge g) ss gs ∧ l.map toDigit = gs.flatten := by
  obtain ⟨gs, h1, h2⟩ := addCs_groups h
  refine ⟨(ss.zip gs).map fun p => (p.2.map fun h => (p.1.event, h)).map toDigit, ?_, ?_⟩
  · clear h h2
    induction h1 with
    | nil => exact List.Forall₂.nil
    | @cons s g ss gs hg _ ih =>
      obtain ⟨room, hg⟩ := hg
      exact List.Forall₂.cons (cluster_of_createCs hg (hc s (List.mem_cons_self ..)) (hs _ _) s.event)
        (ih fun t ht => hc t (List.mem_cons_of_mem _ ht))
  · rw [h2, List.map_flatten, List.map_map]
    rfl

theorem forall2_sublist {α β : Type} {R : β → List α → Prop} (hR : ∀ b x y, R b y → List.Sublist x y → R b x) : ∀ {bs : List β} {L L' : List (List α)},
    List.Forall₂ R bs L → List.Forall₂ List.Sublist L' L → List.Forall₂ R bs L' := by
  intro bs L L' h
  induction h generalizing L' with
  | nil =>
    intro h2
    cases h2
    exact List.Forall₂.nil
  | cons hr _ ih =>
    intro h2
    cases h2 with
    | cons hs ht => exact List.Forall₂.cons (hR _ _ _ hr hs) (ih ht)

end BTA.Sim
