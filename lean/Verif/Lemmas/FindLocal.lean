import Verif.Lemmas.FindTracks
/-
The track finding of a part of a table that contains whole events does the same as the track finding of the complete table.
-/
namespace BTA.Find

variable {F : Type} (S : Setup F) (ev' : List Int)

/-- The same with other event numbers. -/
abbrev Setup.withEvents (S : Setup F) (ev' : List Int) : Setup F := { S with ev := ev' }

/-- The rows `k`, `k + 1`, ... of the table are the rows of the part, which ends at the end of an event. -/
structure Window (k : Nat) : Prop where
  get : ∀ r < ev'.length, S.ev[k + r]? = ev'[r]?
  stop : ∀ e ∈ ev', S.ev[k + ev'.length]? ≠ some e

/-- The arrays of the part are the part of the arrays. -/
structure Rel (k m : Nat) (t t' : Tracks F) : Prop where
  x : ∀ r < m, ∀ d, t.x (k + r) d = t'.x r d
  y : ∀ r < m, ∀ d, t.y (k + r) d = t'.y r d
  z : ∀ r < m, ∀ d, t.z (k + r) d = t'.z r d
  idx : ∀ r < m, ∀ d, t.idx (k + r) d = k + t'.idx r d

/-- The other rows do not change. -/
def Off (k m : Nat) (t t1 : Tracks F) : Prop :=
  ∀ r, ¬ (k ≤ r ∧ r < k + m) → ∀ d, t1.x r d = t.x r d ∧ t1.y r d = t.y r d ∧ t1.z r d = t.z r d ∧ t1.idx r d = t.idx r d

theorem Off.refl (k m : Nat) (t : Tracks F) : Off k m t t := fun _ _ _ => ⟨rfl, rfl, rfl, rfl⟩

theorem Off.trans {k m : Nat} {t t1 t2 : Tracks F} (h : Off k m t t1) (h' : Off k m t1 t2) : Off k m t t2 := by
  intro r hr d
  obtain ⟨a1, a2, a3, a4⟩ := h r hr d
  obtain ⟨b1, b2, b3, b4⟩ := h' r hr d
  exact ⟨b1.trans a1, b2.trans a2, b3.trans a3, b4.trans a4⟩

theorem firstDut_congr (x x' : Nat → Nat → F) (a b : Nat) (h : ∀ d, x a d = x' b d) (zs : List Nat) :
    firstDut S x a zs = firstDut (S.withEvents ev') x' b zs := by
  unfold firstDut
  simp only [h]

theorem lastDut_congr (x x' : Nat → Nat → F) (a b : Nat) (h : ∀ d, x a d = x' b d) (zs : List Nat) :
    lastDut S x a zs = lastDut (S.withEvents ev') x' b zs := by
  unfold lastDut
  simp only [h]

theorem refDuts_congr (hn : S.zs.Nodup) (x x' : Nat → Nat → F) (a b : Nat) (h : ∀ d, x a d = x' b d) (i : Nat) (hi : i < S.zs.length)
    (found : List Nat) : refDuts S x a S.zs[i] found = refDuts (S.withEvents ev') x' b S.zs[i] found := by
  induction i using Nat.strongRecOn generalizing found with
  | _ i ih =>
    rw [refDuts, refDuts]
    by_cases h2 : found.length < 2
    · rw [if_pos h2, if_pos h2]
      simp only [sortedPos_getElem S.zs hn i hi]
      by_cases h0 : (i : Int) = 0
      · rw [if_pos h0, if_pos h0]
      · rw [if_neg h0, if_neg h0]
        simp only [slicePrefix, Int.natCast_nonneg, if_true, Int.toNat_natCast]
        rw [← lastDut_congr S ev' x x' a b h]
        cases hl : lastDut S x a (S.zs.take i) with
        | none => rfl
        | some r =>
          simp only [pure_bind]
          have hr : r ∈ S.zs.take i := by
            have := List.mem_of_find?_eq_some hl
            simpa using this
          obtain ⟨j, hj, rfl⟩ := List.getElem_of_mem hr
          rw [List.length_take] at hj
          rw [List.getElem_take]
          exact ih j (by omega) (by omega) _
    · rw [if_neg h2, if_neg h2]

theorem reference_congr (hn : S.zs.Nodup) (t t' : Tracks F) (a b d first : Nat) (hd : d ∈ S.zs) (hx : ∀ d, t.x a d = t'.x b d)
    (hy : ∀ d, t.y a d = t'.y b d) (hz : ∀ d, t.z a d = t'.z b d) :
    reference S t a d first = reference (S.withEvents ev') t' b d first := by
  obtain ⟨i, hi, rfl⟩ := List.getElem_of_mem hd
  unfold reference
  rw [refDuts_congr S ev' hn t.x t'.x a b hx i hi]
  cases refDuts (S.withEvents ev') t'.x b S.zs[i] [] with
  | none => rfl
  | some f =>
    simp only [Option.bind_eq_bind, Option.bind_some]
    split
    · unfold extrapolate
      simp only [hx, hy, hz]
    · simp only [hx, hy]

section
variable {S ev'} {k : Nat} (w : Window S ev' k)
include w

theorem Window.lt {r : Nat} (hr : r < ev'.length) : k + r < S.ev.length := by
  by_contra h
  have := w.get r hr
  rw [List.getElem?_eq_none (by omega), List.getElem?_eq_getElem hr] at this
  cases this

theorem hitLoop_sim (hn : S.zs.Nodup) (t t' : Tracks F) (hrel : Rel k ev'.length t t') (start track d : Nat) (hs : start < ev'.length)
    (hd : d ∈ S.zs) (ref : F × F) (hit : Nat) (hh : hit ≤ ev'.length) (best : Option Nat) (bd : F) :
    hitLoop S t (k + start) (k + track) d ref (k + hit) (best.map (k + ·)) bd =
      (hitLoop (S.withEvents ev') t' start track d ref hit best bd).map (Option.map (k + ·)) := by
  induction hm : ev'.length - hit using Nat.strongRecOn generalizing hit best bd with
  | _ m ih =>
    conv_lhs => rw [hitLoop]
    conv_rhs => rw [hitLoop]
    by_cases hlt : hit < ev'.length
    · have next : ∀ best bd, hitLoop S t (k + start) (k + track) d ref (k + hit + 1) (best.map (k + ·)) bd =
          (hitLoop (S.withEvents ev') t' start track d ref (hit + 1) best bd).map (Option.map (k + ·)) := fun best bd =>
        ih (ev'.length - (hit + 1)) (by omega) (hit + 1) (by omega) best bd rfl
      have next' : ∀ bd, hitLoop S t (k + start) (k + track) d ref (k + hit + 1) (some (k + hit)) bd =
          (hitLoop (S.withEvents ev') t' start track d ref (hit + 1) (some hit) bd).map (Option.map (k + ·)) := fun bd => next (some hit) bd
      have ex := hrel.x hit hlt
      have ey := hrel.y hit hlt
      have ez := hrel.z hit hlt
      rw [if_pos (w.lt hlt), if_pos (show hit < (S.withEvents ev').ev.length from hlt), w.get hit hlt, w.get start hs]
      have hev : (S.withEvents ev').ev = ev' := rfl
      rw [hev]
      by_cases h1 : ev'[hit]? ≠ ev'[start]?
      · rw [if_pos h1, if_pos h1]; rfl
      · rw [if_neg h1, if_neg h1]
        by_cases h2 : track = hit
        · rw [if_pos (by omega), if_pos h2]; exact next _ _
        · rw [if_neg (by omega), if_neg h2, ex, ey]
          by_cases h3 : S.fl.isnan (t'.x hit d) = true
          · rw [if_pos h3, if_pos h3]; exact next _ _
          · rw [if_neg h3, if_neg h3]
            dsimp only
            have edist : ∀ u v r, distance S u v r = distance (S.withEvents ev') u v r := fun _ _ _ => rfl
            simp only [edist]
            split
            · exact next _ _
            · rw [← firstDut_congr S ev' t.x t'.x (k + hit) hit ex]
              cases firstDut S t.x (k + hit) S.zs with
              | none => exact next' _
              | some fo =>
                dsimp only
                by_cases h5 : fo ≠ d
                · rw [if_pos h5, if_pos h5, reference_congr S ev' hn t t' (k + hit) hit d fo hd ex ey ez]
                  cases reference (S.withEvents ev') t' hit d fo with
                  | none => rfl
                  | some r =>
                    dsimp only
                    split
                    · exact next _ _
                    · exact next' _
                · rw [if_neg h5, if_neg h5]
                  exact next' _
    · have hhe : hit = ev'.length := by omega
      subst hhe
      rw [if_neg (show ¬ ev'.length < (S.withEvents ev').ev.length from by simp)]
      split
      · rename_i hl
        rw [if_pos]
        · rfl
        · rw [w.get start hs, List.getElem?_eq_getElem hs]
          exact w.stop _ (List.getElem_mem hs)
      · rfl

omit w in
theorem swap_rel {m : Nat} {t t' : Tracks F} (hrel : Rel k m t t') (a b d : Nat) (ha : a < m) (hb : b < m) :
    Rel k m (swapHits t (k + a) (k + b) d) (swapHits t' a b d) := by
  have key : ∀ {E : Type} (f f' : Nat → Nat → E) (g : E → E), (∀ r < m, ∀ d, f (k + r) d = g (f' r d)) → ∀ r < m, ∀ d',
      set2 (set2 f (k + a) d (f (k + b) d)) (k + b) d (f (k + a) d) (k + r) d' = g (set2 (set2 f' a d (f' b d)) b d (f' a d) r d') := by
    intro E f f' g h r hr d'
    unfold set2
    simp only [Nat.add_left_cancel_iff, h a ha, h b hb, h r hr]
    split
    · rfl
    · split <;> rfl
  exact ⟨key t.x t'.x id hrel.x, key t.y t'.y id hrel.y, key t.z t'.z id hrel.z, key t.idx t'.idx (k + ·) hrel.idx⟩

omit w in
theorem swap_off {m : Nat} (t : Tracks F) (a b d : Nat) (ha : a < m) (hb : b < m) : Off k m t (swapHits t (k + a) (k + b) d) := by
  intro r hr d'
  have key : ∀ {E : Type} (f : Nat → Nat → E) (u v : E), set2 (set2 f (k + a) d u) (k + b) d v r d' = f r d' := by
    intro E f u v
    unfold set2
    rw [if_neg (by omega), if_neg (by omega)]
  exact ⟨key _ _ _, key _ _ _, key _ _ _, key _ _ _⟩

theorem findTracks_sim (hn : S.zs.Nodup) (start d : Nat) (hs : start < ev'.length) (hd : d ∈ S.zs) (track : Nat) (ht : track < ev'.length)
    (t t' : Tracks F) (hrel : Rel k ev'.length t t') :
    ∃ t1 t1', findTracks S (k + start) d (k + track) t = some t1 ∧ findTracks (S.withEvents ev') start d track t' = some t1' ∧
      Rel k ev'.length t1 t1' ∧ Off k ev'.length t t1 := by
  induction track using Nat.strongRecOn generalizing t t' with
  | _ track ih =>
    have ex := hrel.x track ht
    have ey := hrel.y track ht
    have ez := hrel.z track ht
    rw [findTracks, findTracks]
    rw [← firstDut_congr S ev' t.x t'.x (k + track) track ex]
    have same : ∃ t1 t1', some t = some t1 ∧ some t' = some t1' ∧ Rel k ev'.length t1 t1' ∧ Off k ev'.length t t1 :=
      ⟨t, t', rfl, rfl, hrel, Off.refl _ _ _⟩
    cases hf : firstDut S t.x (k + track) S.zs with
    | none => exact same
    | some first =>
      dsimp only
      by_cases h1 : sortedPos S.zs first ≥ sortedPos S.zs d
      · rw [if_pos h1, if_pos h1]; exact same
      · rw [if_neg h1, if_neg h1, reference_congr S ev' hn t t' (k + track) track d first hd ex ey ez]
        obtain ⟨r, hr⟩ := reference_total (S.withEvents ev') hn t' track d first hd
        rw [hr]
        simp only [Option.bind_eq_bind, Option.bind_some]
        rw [ex, ey]
        have edist : ∀ u v r, distance S u v r = distance (S.withEvents ev') u v r := fun _ _ _ => rfl
        simp only [edist]
        generalize hbd : (if S.fl.isnan (t'.x track d) = true then S.fl.minusOne else distance (S.withEvents ev') (t'.x track d) (t'.y track d) r) = bd
        have hsim := hitLoop_sim w hn t t' hrel start track d hs hd r start (by omega) none bd
        rw [Option.map_none] at hsim
        rw [hsim]
        obtain ⟨b, hb⟩ := hitLoop_total (S.withEvents ev') hn t' start track d hd r start none bd
        rw [hb]
        simp only [Option.map_some, Option.bind_some]
        cases b with
        | none => exact same
        | some best =>
          obtain ⟨hbl, -, -, -⟩ := hitLoop_some (S.withEvents ev') t' start track d r start none _ (by simp) best hb
          have hbl' : best < ev'.length := hbl
          have hrel' := swap_rel hrel track best d ht hbl'
          have hoff := swap_off (k := k) t track best d ht hbl'
          simp only [Option.map_some]
          rw [firstDut_congr S ev' _ _ (k + best) best (hrel'.x best hbl') S.zs]
          by_cases hc : track > best ∧ firstDut (S.withEvents ev') (swapHits t' track best d).x best S.zs ≠ some d
          · rw [if_pos (show k + track > k + best ∧ _ from ⟨by omega, hc.2⟩), if_pos hc]
            obtain ⟨t1, t1', g1, g2, g3, g4⟩ := ih best hc.1 hbl' _ _ hrel'
            exact ⟨t1, t1', g1, g2, g3, hoff.trans g4⟩
          · rw [if_neg (fun h => hc ⟨by omega, h.2⟩), if_neg hc]
            exact ⟨_, _, rfl, rfl, hrel', hoff⟩

theorem rowLoop_sim (hn : S.zs.Nodup) (start d : Nat) (hs : start < ev'.length) (hd : d ∈ S.zs) (a : Int) (ha : ev'[start]? = some a) (row : Nat)
    (hrow : row ≤ ev'.length) (t t' : Tracks F) (hrel : Rel k ev'.length t t') :
    ∃ t1 t1', rowLoop S (k + start) d a (k + row) t = some t1 ∧ rowLoop (S.withEvents ev') start d a row t' = some t1' ∧
      Rel k ev'.length t1 t1' ∧ Off k ev'.length t t1 := by
  induction hm : ev'.length - row using Nat.strongRecOn generalizing row t t' with
  | _ m ih =>
    rw [rowLoop, rowLoop]
    have same : ∃ t1 t1', some t = some t1 ∧ some t' = some t1' ∧ Rel k ev'.length t1 t1' ∧ Off k ev'.length t t1 :=
      ⟨t, t', rfl, rfl, hrel, Off.refl _ _ _⟩
    have hev : (S.withEvents ev').ev = ev' := rfl
    rw [hev]
    by_cases hlt : row < ev'.length
    · rw [if_pos (w.lt hlt), if_pos hlt, w.get row hlt]
      by_cases h1 : ev'[row]? ≠ some a
      · rw [if_pos h1, if_pos h1]; exact same
      · rw [if_neg h1, if_neg h1]
        obtain ⟨t1, t1', g1, g2, g3, g4⟩ := findTracks_sim w hn start d hs hd row hlt t t' hrel
        rw [g1, g2]
        simp only [Option.bind_eq_bind, Option.bind_some]
        obtain ⟨t2, t2', f1, f2, f3, f4⟩ := ih (ev'.length - (row + 1)) (by omega) (row + 1) (by omega) t1 t1' g3 rfl
        exact ⟨t2, t2', f1, f2, f3, g4.trans f4⟩
    · have : row = ev'.length := by omega
      subst this
      rw [if_neg (Nat.lt_irrefl _)]
      split
      · rw [if_pos (w.stop a (List.mem_of_getElem? ha))]; exact same
      · exact same

theorem dutLoop_sim (hn : S.zs.Nodup) (start : Nat) (hs : start < ev'.length) (a : Int) (ha : ev'[start]? = some a) (ds : List Nat)
    (hds : ∀ d ∈ ds, d ∈ S.zs) (t t' : Tracks F) (hrel : Rel k ev'.length t t') :
    ∃ t1 t1', dutLoop S (k + start) a ds t = some t1 ∧ dutLoop (S.withEvents ev') start a ds t' = some t1' ∧
      Rel k ev'.length t1 t1' ∧ Off k ev'.length t t1 := by
  induction ds generalizing t t' with
  | nil => exact ⟨t, t', rfl, rfl, hrel, Off.refl _ _ _⟩
  | cons d ds ih =>
    obtain ⟨t1, t1', g1, g2, g3, g4⟩ := rowLoop_sim w hn start d hs (hds d List.mem_cons_self) a ha start (by omega) t t' hrel
    obtain ⟨t2, t2', f1, f2, f3, f4⟩ := ih (fun d hd => hds d (List.mem_cons_of_mem _ hd)) t1 t1' g3
    rw [dutLoop, dutLoop, g1, g2]
    exact ⟨t2, t2', f1, f2, f3, g4.trans f4⟩

/-- Up to the end of the part. `hstart`: the part begins with a new event. -/
theorem findLoop_sim (hn : S.zs.Nodup) (row : Nat) (hrow : row ≤ ev'.length) (an an' : Int) (t t' : Tracks F) (hrel : Rel k ev'.length t t')
    (hstart : row = 0 → k = 0 ∨ ev'[0]? ≠ some an) (hsame : 0 < row → an = an') :
    ∃ t1 t1' an1, findLoop S an (k + row) t = findLoop S an1 (k + ev'.length) t1 ∧ findLoop (S.withEvents ev') an' row t' = some t1' ∧
      Rel k ev'.length t1 t1' ∧ Off k ev'.length t t1 ∧ (an1 = an ∧ row = ev'.length ∨ an1 ∈ ev' ∨ an1 = an ∧ 0 < row) := by
  induction hm : ev'.length - row using Nat.strongRecOn generalizing row t t' an an' with
  | _ m ih =>
    by_cases hlt : row < ev'.length
    · have hev : (S.withEvents ev').ev = ev' := rfl
      have hget : S.ev[k + row]'(w.lt hlt) = ev'[row] := by
        have := w.get row hlt
        rw [List.getElem?_eq_getElem (w.lt hlt), List.getElem?_eq_getElem hlt] at this
        exact Option.some.inj this
      conv => enter [1, t1, 1, t1', 1, an1, 1]; rw [findLoop]
      conv => enter [1, t1, 1, t1', 1, an1, 2, 1]; rw [findLoop]
      rw [dif_pos (w.lt hlt), dif_pos (show row < (S.withEvents ev').ev.length from hlt), hget]
      change ∃ t1 t1' an1, _ ∧ (if ev'[row] ≠ an' ∨ row = 0 then _ else _) = _ ∧ _
      have hcond : (ev'[row] ≠ an ∨ k + row = 0) ↔ (ev'[row] ≠ an' ∨ row = 0) := by
        by_cases h0 : row = 0
        · subst h0
          rcases hstart rfl with h | h
          · simp [h]
          · rw [List.getElem?_eq_getElem hlt] at h
            simp only [or_true, iff_true]
            exact .inl fun h' => h (congrArg some h')
        · have := hsame (by omega)
          subst this
          have : k + row ≠ 0 := by omega
          simp [h0, this]
      by_cases hc : ev'[row] ≠ an' ∨ row = 0
      · rw [if_pos (hcond.mpr hc), if_pos hc]
        obtain ⟨t1, t1', g1, g2, g3, g4⟩ := dutLoop_sim w hn row hlt ev'[row] (List.getElem?_eq_getElem hlt) S.zs.tail
          (fun d hd => List.mem_of_mem_tail hd) t t' hrel
        rw [g1]
        have g2' : dutLoop (S.withEvents ev') row ((S.withEvents ev').ev[row]'hlt) (S.withEvents ev').zs.tail t' = some t1' := g2
        rw [g2']
        dsimp only
        obtain ⟨t2, t2', an1, f1, f2, f3, f4, f5⟩ := ih (ev'.length - (row + 1)) (by omega) (row + 1) (by omega) ev'[row] ev'[row] t1 t1' g3 (by omega) (fun _ => rfl) rfl
        refine ⟨t2, t2', an1, f1, f2, f3, g4.trans f4, ?_⟩
        rcases f5 with ⟨f5, -⟩ | f5 | ⟨f5, -⟩
        · exact .inr (.inl (f5 ▸ List.getElem_mem hlt))
        · exact .inr (.inl f5)
        · exact .inr (.inl (f5 ▸ List.getElem_mem hlt))
      · have h0 : 0 < row := by
          by_contra h; exact hc (.inr (by omega))
        rw [if_neg (fun h => hc (hcond.mp h)), if_neg hc]
        obtain ⟨t2, t2', an1, f1, f2, f3, f4, f5⟩ := ih (ev'.length - (row + 1)) (by omega) (row + 1) (by omega) an an' t t' hrel (by omega) (fun _ => hsame h0) rfl
        refine ⟨t2, t2', an1, f1, f2, f3, f4, ?_⟩
        rcases f5 with ⟨f5, -⟩ | f5 | ⟨f5, -⟩
        · exact .inr (.inr ⟨f5, h0⟩)
        · exact .inr (.inl f5)
        · exact .inr (.inr ⟨f5, h0⟩)
    · have : row = ev'.length := by omega
      subst this
      refine ⟨t, t', an, rfl, ?_, hrel, Off.refl _ _ _, .inl ⟨rfl, rfl⟩⟩
      rw [findLoop, dif_neg]
      exact Nat.lt_irrefl _
end

end BTA.Find
