import Verif.Lemmas.SimData
import Verif.Lemmas.SimulateStore
import Verif.Props.Digitize
import Verif.Props.Simulate
/-
Lemmas that connect the simulated hits with the simulated tracks.
-/
namespace BTA.Sim
open Spec Props BTA.Geo BTA.Spec

/-- Event, column and row of a hit. -/
def digitKey (d : Digit ℝ) : Int × ℝ × ℝ := (d.event, d.column, d.row)

/-- Event and pixel of a track. -/
noncomputable def trackKey (r : Response ℝ) (t : TrackHit ℝ) : Int × ℝ × ℝ := (t.event, (pixelOf t.x r.sizeX : ℝ), (pixelOf t.y r.sizeY : ℝ))

/-- The pixel of the track is a pixel of the sensor. -/
noncomputable def onSensor (r : Response ℝ) (t : TrackHit ℝ) : Bool :=
  decide ((1 ≤ pixelOf t.x r.sizeX ∧ pixelOf t.x r.sizeX ≤ r.columns) ∧ 1 ≤ pixelOf t.y r.sizeY ∧ pixelOf t.y r.sizeY ≤ r.rows)

theorem positions_keys (frac : ℝ → ℝ → Int → Int → ℝ) (minF : ℝ) (r : Response ℝ) (charge : Nat → ℝ) (hits : List (TrackHit ℝ)) :
    ∃ l, positions minF true false frac r charge hits = .ok l ∧ l.map digitKey = (hits.filter (onSensor r)).map (trackKey r) := by
  refine ⟨_, rfl, ?_⟩
  unfold seeds
  rw [List.map_map]
  generalize 0 = n
  induction hits generalizing n with
  | nil => rfl
  | cons t ts ih =>
    rw [List.zipIdx_cons, List.map_cons]
    have e : inside r (((fun s : Seed ℝ => toDigit (s.event, s.hit)) ∘ fun p : TrackHit ℝ × Nat =>
        (⟨p.1.event, ⟨pixelOf p.1.x r.sizeX, pixelOf p.1.y r.sizeY, charge p.2⟩, p.1.x - ((pixelOf p.1.x r.sizeX : ℝ) - 1 / 2) * r.sizeX,
          p.1.y - ((pixelOf p.1.y r.sizeY : ℝ) - 1 / 2) * r.sizeY⟩ : Seed ℝ)) (t, n)) = onSensor r t := by
      unfold inside onSensor toDigit
      simp only [Function.comp]
      rw [← Bool.decide_and, ← Bool.decide_and, ← Bool.decide_and, decide_eq_decide, Int.cast_le, Int.cast_le, Int.cast_pos, Int.cast_pos]
      omega
    by_cases h : onSensor r t = true
    · rw [List.filter_cons_of_pos (by rw [e]; exact h), List.filter_cons_of_pos h, List.map_cons, List.map_cons]
      exact congrArg₂ _ rfl (ih (n + 1))
    · rw [List.filter_cons_of_neg (by rw [e]; exact h), List.filter_cons_of_neg h]
      exact ih (n + 1)

/-- The hits are those of some of the tracks on the sensor; of all of them, if there is no inefficiency and no threshold. -/
theorem digitize_keys {frac : ℝ → ℝ → Int → Int → ℝ} {minF : ℝ} {r : Response ℝ} {g : Random ℝ} {hits : List (TrackHit ℝ)} {ds : List (Digit ℝ)}
    (h : digitize minF true false frac r g hits = .ok ds) :
    (∃ sub, sub.Sublist (hits.filter (onSensor r)) ∧ ds.map digitKey = sub.map (trackKey r) ∧ (1 ≤ r.efficiency → r.threshold = 0 → sub = hits.filter (onSensor r))) ∧
      (Shuffles g.shuffle → 0 ≤ r.efficiency → r.efficiency ≤ 1 → r.threshold = 0 →
        ds.length = (hits.filter (onSensor r)).length - ⌊((hits.filter (onSensor r)).length : ℝ) * (1 - r.efficiency)⌋.toNat) := by
  obtain ⟨l, h1, h2⟩ := positions_keys frac minF r g.charge hits
  unfold digitize at h
  rw [h1] at h
  cases h
  have hlen : l.length = (hits.filter (onSensor r)).length := by
    have := congrArg List.length h2
    rwa [List.length_map, List.length_map] at this
  have hnoise : (addNoise r g.noise (inefficient r g.shuffle l)).map digitKey = (inefficient r g.shuffle l).map digitKey := addNoise_same r g.noise _ _ (fun _ _ => rfl)
  constructor
  · have hs : ((aboveThreshold r (addNoise r g.noise (inefficient r g.shuffle l))).map digitKey).Sublist ((hits.filter (onSensor r)).map (trackKey r)) := by
      rw [← h2]
      refine ((aboveThreshold_sublist r _).map digitKey).trans ?_
      rw [hnoise]
      exact (inefficient_sublist r _ l).map digitKey
    by_cases hfull : 1 ≤ r.efficiency ∧ r.threshold = 0
    · refine ⟨_, List.Sublist.refl _, ?_, fun _ _ => rfl⟩
      unfold aboveThreshold
      rw [if_neg (not_not.mpr hfull.2), hnoise]
      unfold inefficient
      rw [if_neg (not_lt.mpr hfull.1), h2]
    · obtain ⟨sub, a1, a2⟩ := List.sublist_map_iff.mp hs
      exact ⟨sub, a1, a2, fun b1 b2 => absurd ⟨b1, b2⟩ hfull⟩
  · intro hg h0 h1' ht
    unfold aboveThreshold
    rw [if_neg (not_not.mpr ht)]
    have e := congrArg List.length hnoise
    rw [List.length_map, List.length_map] at e
    rw [e, ← hlen]
    rcases lt_or_eq_of_le h1' with h2 | h2
    · exact inefficient_length r g.shuffle hg l h0 h2
    · unfold inefficient
      rw [h2, if_neg (lt_irrefl _)]
      simp

theorem groupPerm_events : ∀ (cs : List Nat) (k : Int) (b : List Int), GroupPerm cs (eventsFrom k cs) b → b = eventsFrom k cs := by
  intro cs
  induction cs with
  | nil => intro k b h; exact h.symm
  | cons c cs ih =>
    intro k b h
    have h1 := h.1
    have h2 := h.2
    unfold eventsFrom at h1 h2 ⊢
    rw [List.take_left' List.length_replicate] at h1
    rw [List.drop_left' List.length_replicate] at h2
    rw [← List.take_append_drop c b, ih _ _ h2, List.perm_replicate.mp h1.symm]

/-- The order of the tracks in a DUT. -/
noncomputable def order (s : Settings) (d : Draws) (start : Int) (n : Nat) (k : Nat) : List Nat :=
  let counts := trackCounts d.counts n
  let events := trackEvents start counts
  if s.shuffle then shuffleHits (d.shuffle k) events (trackMultiplicity counts) (List.range events.length) else List.range events.length

theorem range_filterMap {H : Type} (h : List H) : (List.range h.length).filterMap (fun i => h[i]?) = h := by
  refine List.ext_getElem? fun i => ?_
  have key : ∀ (l : List Nat), (∀ j ∈ l, j < h.length) → ∀ i : Nat, (l.filterMap fun i => h[i]?)[i]? = l[i]?.bind fun j => h[j]? := by
    intro l
    induction l with
    | nil => intro _ i; simp
    | cons a l ih =>
      intro hl i
      rw [List.filterMap_cons_some (List.getElem?_eq_getElem (hl a (List.mem_cons_self ..)))]
      cases i with
      | zero => simp [List.getElem?_eq_getElem (hl a (List.mem_cons_self ..))]
      | succ i => simpa using ih (fun j hj => hl j (List.mem_cons_of_mem _ hj)) i
  rw [key _ (fun j hj => List.mem_range.mp hj)]
  by_cases hi : i < h.length
  · rw [List.getElem?_range hi]
    rfl
  · rw [List.getElem?_eq_none (by simpa using hi), List.getElem?_eq_none (by simpa using hi)]
    rfl

theorem shuffleHits_order {H : Type} (shuffle : Nat → List Nat → List Nat) (events : List Int) (counts : List Nat) (hits : List H) :
    shuffleHits shuffle events counts hits = (shuffleHits shuffle events counts (List.range hits.length)).filterMap fun i => hits[i]? := by
  unfold shuffleHits
  rw [List.filterMap_filterMap, List.length_range]
  refine List.filterMap_congr fun i _ => ?_
  by_cases hi : i < hits.length
  · rw [List.getElem?_range hi]
    rfl
  · rw [List.getElem?_eq_none (by simpa using hi), List.getElem?_eq_none (by simpa using hi)]
    rfl

theorem order_ok (s : Settings) (d : Draws) (hs : ∀ k i, Shuffles (d.shuffle k i)) (start : Int) (n k : Nat) :
    (order s d start n k).Perm (List.range (trackEvents start (trackCounts d.counts n)).length) ∧
      (order s d start n k).map (fun j => (trackEvents start (trackCounts d.counts n)).getD j 0) = trackEvents start (trackCounts d.counts n) := by
  set counts := trackCounts d.counts n with hc
  set events := trackEvents start counts with he
  have hsum : events.length = counts.sum := by rw [he, eventsFrom_eq, eventsFrom_length]
  have hid : (List.range events.length).map (fun j => events.getD j 0) = events := by
    refine List.ext_getElem (by simp) fun i h1 h2 => ?_
    rw [List.getElem_map, List.getElem_range, List.getD_eq_getElem?_getD, List.getElem?_eq_getElem h2]
    rfl
  unfold order
  dsimp only
  rw [← hc, ← he]
  split_ifs
  · have h := shuffleHits_groups (hs k) start counts (List.range events.length) (by rw [List.length_range, hsum])
    refine ⟨h.perm.symm, ?_⟩
    have h2 := h.map (fun j => events.getD j 0)
    rw [hid] at h2
    rw [he, eventsFrom_eq] at h2 ⊢
    exact groupPerm_events counts start _ h2
  · exact ⟨List.Perm.refl _, hid⟩

theorem order_hits (s : Settings) (d : Draws) (start : Int) (n k : Nat) (hits : List (List Vec3)) (l l0 : List Vec3) (h0 : hits[k]? = some l0)
    (hl0 : l0.length = (trackEvents start (trackCounts d.counts n)).length)
    (hl : (shuffleAll s.shuffle d.shuffle (trackEvents start (trackCounts d.counts n)) (trackMultiplicity (trackCounts d.counts n)) hits)[k]? = some l) :
    l = (order s d start n k).filterMap fun j => l0[j]? := by
  unfold shuffleAll at hl
  unfold order
  dsimp only
  split_ifs at hl ⊢
  · rw [List.getElem?_map, List.getElem?_zipIdx, h0] at hl
    have e : shuffleHits (d.shuffle k) (trackEvents start (trackCounts d.counts n)) (trackMultiplicity (trackCounts d.counts n)) l0 = l := by simpa using hl
    rw [← e, shuffleHits_order, hl0]
  · rw [h0] at hl
    cases hl
    rw [← hl0, range_filterMap]

/-- Local position in a DUT of the simulation: the origin is a corner of the sensor. -/
noncomputable def cornerPos (o : ℝ × ℝ) (z : ℝ) (r : ℝ × ℝ × ℝ) (q : Vec3) : Vec3 := (rotationMatrix r.1 r.2.1 r.2.2).transpose.mulVec (q - ![o.1, o.2, z])

/-- Event of track `j`. -/
def evAt (start : Int) (d : Draws) (n : Nat) (j : Nat) : Int := (trackEvents start (trackCounts d.counts n)).getD j 0

/-- Number of tracks of a chunk. -/
def nTracks (d : Draws) (n : Nat) : Nat := (trackCounts d.counts n).sum

theorem nTracks_eq (d : Draws) (n : Nat) (start : Int) : (trackEvents start (trackCounts d.counts n)).length = nTracks d n := by
  rw [eventsFrom_eq, eventsFrom_length]
  rfl

theorem chunk_keys {erf : ℝ → ℝ} {s : Settings} {d : Draws} {start : Int} {n : Nat} {data : List (List (Digit ℝ))} (h : createData erf s d start n = .ok data) (k : Nat)
    (ds : List (Digit ℝ)) (hk : data[k]? = some ds) (hd : s.discretization = true) (hc : s.chargeSharing = false) (hmat : ∀ m ∈ s.dutMaterialBudget, m = 0)
    (hs : ∀ k i, Shuffles (d.shuffle k i)) (z : ℝ) (o : ℝ × ℝ) (ro : ℝ × ℝ × ℝ) (sz : ℝ × ℝ) (np : Int × Int) (eff thr : ℝ) (hz : s.zPositions[k]? = some z)
    (ho : s.offsets[k]? = some o) (hro : s.rotations[k]? = some ro) (hsz : s.dutPixelSize[k]? = some sz) (hnp : s.dutNPixel[k]? = some np)
    (heff : s.dutEfficiencies[k]? = some eff) (hthr : s.dutThreshold[k]? = some thr) :
    ∃ tracks, createTracks s d.tracks (nTracks d n) = .ok tracks ∧ tracks.length = nTracks d n ∧ ∃ q : Nat → Vec3,
      (∀ j t, tracks[j]? = some t → OnLine ![t.x, t.y, 0] (direction t) (q j) ∧ cornerPos o z ro (q j) 2 = 0) ∧ ∃ idx : List Nat,
      (ds.map digitKey = idx.map fun j => (evAt start d n j, (pixelOf (cornerPos o z ro (q j) 0) sz.1 : ℝ), (pixelOf (cornerPos o z ro (q j) 1) sz.2 : ℝ))) ∧
      idx.Nodup ∧ (∀ j ∈ idx, j < nTracks d n ∧ (1 ≤ pixelOf (cornerPos o z ro (q j) 0) sz.1 ∧ pixelOf (cornerPos o z ro (q j) 0) sz.1 ≤ np.1) ∧
        1 ≤ pixelOf (cornerPos o z ro (q j) 1) sz.2 ∧ pixelOf (cornerPos o z ro (q j) 1) sz.2 ≤ np.2) ∧
      ((∀ j < nTracks d n, (1 ≤ pixelOf (cornerPos o z ro (q j) 0) sz.1 ∧ pixelOf (cornerPos o z ro (q j) 0) sz.1 ≤ np.1) ∧
        1 ≤ pixelOf (cornerPos o z ro (q j) 1) sz.2 ∧ pixelOf (cornerPos o z ro (q j) 1) sz.2 ≤ np.2) → thr = 0 →
        (1 ≤ eff → idx.Perm (List.range (nTracks d n))) ∧
        (Shuffles (d.dut k).shuffle → 0 ≤ eff → eff ≤ 1 → idx.length = nTracks d n - ⌊((nTracks d n : Nat) : ℝ) * (1 - eff)⌋.toNat)) := by
  obtain ⟨tracks, hits, p, l, r, w, b, h1, h2, h3, h4, h5, h6, h7⟩ := createData_get h k ds hk
  obtain ⟨r1, -, r3, r4, r5, -, -⟩ := responseAt_ok h6
  rw [hz] at h4
  rw [hsz] at r3
  rw [hnp] at r4
  rw [heff] at r5
  rw [hthr] at r1
  have ez := Option.some.inj h4
  have esz := Option.some.inj r3
  have enp := Option.some.inj r4
  have eeff := Option.some.inj r5
  have ethr := Option.some.inj r1
  unfold planeAt at h3
  rw [ho, hro] at h3
  have hp : p.x = o.1 ∧ p.y = o.2 ∧ p.alpha = ro.1 ∧ p.beta = ro.2.1 ∧ p.gamma = ro.2.2 := by
    split at h3
    · next a1 a2 a3 =>
      cases a1
      cases a2
      have := Except.ok.inj h3
      rw [← this]
      exact ⟨rfl, rfl, rfl, rfl, rfl⟩
    · cases h3
  have hloc : ∀ q, toLocal p q = cornerPos o z ro q := by
    intro q
    rw [toLocal_eq, hp.1, hp.2.1, hp.2.2.1, hp.2.2.2.1, hp.2.2.2.2, ← ez]
    rfl
  set events := trackEvents start (trackCounts d.counts n) with hev
  have hT : events.length = nTracks d n := nTracks_eq d n start
  have htl : tracks.length = events.length := (createTracks_ok h1).1
  obtain ⟨hh1, hh2⟩ := C142_hits s _ _ tracks hits h2
  have hkl : k < hits.length := by
    rw [hh1]
    exact (List.getElem?_eq_some_iff.mp hz).1
  obtain ⟨g1, ⟨z', o', r', g2, g3, g4, g5⟩, g6⟩ := hh2 k _ (List.getElem?_eq_getElem hkl)
  rw [hz] at g2
  rw [ho] at g3
  rw [hro] at g4
  cases g2
  cases g3
  cases g4
  have hord := order_hits s d start n k hits l _ (List.getElem?_eq_getElem hkl) (by rw [g1, htl]) h5
  obtain ⟨hperm, hevs⟩ := order_ok s d hs start n k
  rw [← hev] at hperm hevs
  set l0 := hits[k]'hkl with hl0
  have hlt : ∀ j ∈ order s d start n k, j < l0.length := by
    intro j hj
    have := List.mem_range.mp (hperm.mem_iff.mp hj)
    omega
  set q : Nat → Vec3 := fun j => l0.getD j 0 with hq
  have hl : l = (order s d start n k).map q := by
    rw [hord]
    have key : ∀ π : List Nat, (∀ j ∈ π, j < l0.length) → (π.filterMap fun j => l0[j]?) = π.map q := by
      intro π
      induction π with
      | nil => intro _; rfl
      | cons a π ih =>
        intro hπ
        have ha := List.getElem?_eq_getElem (hπ a (List.mem_cons_self ..))
        rw [List.filterMap_cons_some ha, List.map_cons, ih fun j hj => hπ j (List.mem_cons_of_mem _ hj)]
        congr 1
        rw [hq]
        dsimp only
        rw [List.getD_eq_getElem?_getD, ha]
        rfl
    exact key _ hlt
  have hqget : ∀ j < l0.length, l0[j]? = some (q j) := by
    intro j hj
    rw [hq]
    dsimp only
    rw [List.getD_eq_getElem?_getD, List.getElem?_eq_getElem hj]
    rfl
  have hin : (events.zip l).map (fun x => (⟨x.1, toLocal p x.2 0, toLocal p x.2 1⟩ : TrackHit ℝ)) =
      (order s d start n k).map fun j => (⟨evAt start d n j, cornerPos o z ro (q j) 0, cornerPos o z ro (q j) 1⟩ : TrackHit ℝ) := by
    have : events.zip l = (order s d start n k).map fun j => (evAt start d n j, q j) := by
      conv_lhs => rw [← hevs, hl]
      rw [List.zip_map']
      rfl
    rw [this, List.map_map]
    refine List.map_congr_left fun j _ => ?_
    simp only [Function.comp, hloc]
  rw [hin, hd, hc] at h7
  obtain ⟨⟨sub, s1, s2, s3⟩, s4⟩ := digitize_keys h7
  rw [List.filter_map] at s1 s3 s4
  obtain ⟨idx, i1, rfl⟩ := List.sublist_map_iff.mp s1
  have hsx : r.sizeX = sz.1 := by rw [esz]
  have hsy : r.sizeY = sz.2 := by rw [esz]
  have hnx : r.columns = np.1 := by rw [enp]
  have hny : r.rows = np.2 := by rw [enp]
  have hon : ∀ j, (onSensor r ∘ fun j => (⟨evAt start d n j, cornerPos o z ro (q j) 0, cornerPos o z ro (q j) 1⟩ : TrackHit ℝ)) j = true ↔
      (1 ≤ pixelOf (cornerPos o z ro (q j) 0) sz.1 ∧ pixelOf (cornerPos o z ro (q j) 0) sz.1 ≤ np.1) ∧
        1 ≤ pixelOf (cornerPos o z ro (q j) 1) sz.2 ∧ pixelOf (cornerPos o z ro (q j) 1) sz.2 ≤ np.2 := by
    intro j
    unfold onSensor
    simp only [Function.comp, decide_eq_true_eq, hsx, hsy, hnx, hny]
  have hnodup : (order s d start n k).Nodup := hperm.nodup_iff.mpr List.nodup_range
  have hsub : idx.Sublist (order s d start n k) := i1.trans List.filter_sublist
  refine ⟨tracks, by rw [← hT]; exact h1, by omega, q, ?_, idx, ?_, hnodup.sublist hsub, ?_, ?_⟩
  · intro j t ht
    have hj := (List.getElem?_eq_some_iff.mp ht).1
    have hqj := hqget j (by omega)
    exact ⟨g6 hmat j t (q j) ht hqj, g5 _ (List.mem_of_getElem? hqj)⟩
  · rw [s2, List.map_map]
    refine List.map_congr_left fun j _ => ?_
    simp only [Function.comp, trackKey, hsx, hsy]
  · intro j hj
    have := List.mem_filter.mp (i1.subset hj)
    refine ⟨?_, (hon j).mp this.2⟩
    have := List.mem_range.mp (hperm.mem_iff.mp this.1)
    omega
  · intro hall ht
    have hfil : (order s d start n k).filter (onSensor r ∘ fun j => (⟨evAt start d n j, cornerPos o z ro (q j) 0, cornerPos o z ro (q j) 1⟩ : TrackHit ℝ)) =
        order s d start n k := by
      refine List.filter_eq_self.mpr fun j hj => (hon j).mpr (hall j ?_)
      have := List.mem_range.mp (hperm.mem_iff.mp hj)
      omega
    have hol : (order s d start n k).length = nTracks d n := by rw [hperm.length_eq, List.length_range, hT]
    rw [hfil] at s3 s4 i1
    have hil : idx.length = ds.length := by
      have := congrArg List.length s2
      simp only [List.length_map] at this
      exact this.symm
    refine ⟨fun he => ?_, fun hg he0 he1 => ?_⟩
    · have e := congrArg List.length (s3 (by rw [← eeff]; exact he) (by rw [← ethr]; exact ht))
      rw [List.length_map, List.length_map] at e
      rw [i1.eq_of_length e, ← hT]
      exact hperm
    · have := s4 hg (by rw [← eeff]; exact he0) (by rw [← eeff]; exact he1) (by rw [← ethr]; exact ht)
      rw [List.length_map, hol, ← eeff] at this
      rw [hil, this]

end BTA.Sim
