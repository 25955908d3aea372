import Verif.Lemmas.InPixel
import Verif.Props.Efficiency
import Mathlib.Data.Rat.Floor
/-
Property C158: the in-pixel histograms of a region count every track of the region once, in the square of its position in the cell.
Property C159: the in-pixel histogram of the hits.
Property C160: the in-pixel histograms are continued periodically.
-/
namespace BTA.InPixel.Props
open BTA.Binning BTA.Efficiency BTA.Efficiency.Spec BTA.Spec BTA.InPixel.Spec

variable {K : Type} [Field K] [LinearOrder K] [IsStrictOrderedRing K] [FloorRing K]

/-- C158 for a cell of any size, for every chunk size and whenever the call succeeds. Missing: a position exactly at the end of a pixel, see
`C158_border`. -/
theorem C158_large_cell_partial (s : Setup K) (p : Cell K) (hp : Proper p) (T : List (Row K)) (hs : SortedBy Row.event T) (cs : Nat)
    (hcs : 0 < cs) (sc : Scope K) (o : Output K) (os : List (RegionOutput K)) (h : inPixel s p (none, none) T cs sc = .ok (o, os))
    (hb : ∀ r ∈ T, Used s r → ¬ OnBorder p (cellPos s p r)) :
    os.length = s.regions.length ∧ ∀ (k : Nat) (g : Region K), s.regions[k]? = some g → ∃ ro, os[k]? = some ro ∧ Correct s p T g ro := by
  classical
  obtain ⟨hfl, rfl⟩ := inPixel_ok hs hcs h
  have hb' : ∀ r ∈ prepare s (chunksOf T cs).flatten, ¬ OnBorder p (p.fold r.ix r.iy) := by
    rw [hfl]
    intro r hr
    unfold prepare at hr
    rw [List.mem_filter] at hr
    obtain ⟨h1, h2⟩ := hr
    obtain ⟨r0, h3, rfl⟩ := List.mem_map.mp h1
    exact hb r0 h3 h2
  have ha := areas_ok hp (areaOk_start s p) hb'
  rw [hfl, List.nil_append] at ha
  generalize areas s p (chunksOf T cs) (startArea s p) = a at ha ⊢
  refine ⟨by rw [List.length_map, ha.maps.length_eq], ?_⟩
  intro k g hg
  obtain ⟨m, hm, hok⟩ := forall₂_getElem? ha.maps hg
  refine ⟨_, by rw [List.getElem?_map, hm]; rfl, ?_⟩
  have hat : ∀ i j, i < (shapeOf p a.size).1 + 2 * 0 → j < (shapeOf p a.size).2 + 2 * 0 →
      (wrapped (shapeOf p a.size).1 0 i, wrapped (shapeOf p a.size).2 0 j) = (i, j) := by
    intro i j hi hj
    rw [wrapped_zero (by omega), wrapped_zero (by omega)]
  have ht : ∀ i j, m.tracks (i, j) = number T fun r => Used s r ∧ InRegion s g r ∧ InSquare p i j (cellPos s p r) := by
    intro i j; rw [hok.tracks]; exact counts_tracks s hp T g i j
  have hw : ∀ i j, m.withHit (i, j) = number T fun r => Used s r ∧ InRegion s g r ∧ InSquare p i j (cellPos s p r) ∧ Matched s r := by
    intro i j; rw [hok.withHit]; exact counts_valid s hp T g i j
  refine ⟨?_, ?_, ?_, ?_, ?_, ?_⟩
  · intro i j hi hj
    show m.tracks (wrapped (shapeOf p a.size).1 0 i, wrapped (shapeOf p a.size).2 0 j) = _
    rw [hat i j hi hj]; exact ht i j
  · intro i j hi hj
    show m.withHit (wrapped (shapeOf p a.size).1 0 i, wrapped (shapeOf p a.size).2 0 j) = _
    rw [hat i j hi hj]; exact hw i j
  · intro q i j hi hj
    show m.means q (wrapped (shapeOf p a.size).1 0 i, wrapped (shapeOf p a.size).2 0 j) = _
    rw [hat i j hi hj, hok.means]; exact binMean_valid s hp T g q i j
  · intro i j hi hj
    show percent (m.withHit (wrapped (shapeOf p a.size).1 0 i, wrapped (shapeOf p a.size).2 0 j)) (m.tracks (wrapped (shapeOf p a.size).1 0 i, wrapped (shapeOf p a.size).2 0 j)) = _
    rw [hat i j hi hj, ht, hw]; exact Efficiency.Props.percent_eq _ _
  · intro i j hi hj
    show masked s (m.tracks (wrapped (shapeOf p a.size).1 0 i, wrapped (shapeOf p a.size).2 0 j)) = true ↔ _
    rw [hat i j hi hj, ht]; unfold masked; rw [decide_eq_true_eq]
  · intro r hr hu
    have hmem : shifted s r ∈ prepare s T := by
      unfold prepare
      rw [List.mem_filter]
      exact ⟨List.mem_map_of_mem (f := fun r : Row K => { r with ix := r.ix + s.offset.1, iy := r.iy + s.offset.2 }) hr, hu⟩
    have hin := ha.inside _ hmem
    have hlt := square_lt hp ha.size (hp.fold _ _) hin
    exact ⟨_, _, by show _ < _ + 2 * 0; exact hlt.1, by show _ < _ + 2 * 0; exact hlt.2, (square_iff p hp (hp.fold _ _) _ _).mp rfl⟩

omit [FloorRing K] in
theorem not_border_aux {a b c : K} (h1 : a < b) (h2 : b ≤ c) : a ≠ c := (lt_of_lt_of_le h1 h2).ne

/-- C158 for the DUTs whose primitive cell is one pixel: right for every table and chunk size, and the histograms have the smallest number
of squares which covers the pixel. -/
theorem C158_pixel (s : Setup K) (p : Cell K) (hp : Proper p) (h1 : OnePixel p) (T : List (Row K)) (hs : SortedBy Row.event T) (cs : Nat)
    (hcs : 0 < cs) (sc : Scope K) (o : Output K) (os : List (RegionOutput K)) (h : inPixel s p (none, none) T cs sc = .ok (o, os)) :
    os.length = s.regions.length ∧ ∀ (k : Nat) (g : Region K), s.regions[k]? = some g → ∃ ro, os[k]? = some ro ∧ Correct s p T g ro ∧
      (ro.shape.1 : ℤ) = ⌈p.pitch.1 / p.res.1⌉ ∧ (ro.shape.2 : ℤ) = ⌈p.pitch.2 / p.res.2⌉ := by
  obtain ⟨hl, hc⟩ := C158_large_cell_partial s p hp T hs cs hcs sc o os h (by
    intro r _ _ hbd
    obtain ⟨b1, b2⟩ := h1 (posX s r) (posY s r)
    rcases hbd with hx | hy
    · exact not_border_aux b1 (pixelEnd_ge hp.pitch.1 hp.res.1 hx) rfl
    · exact not_border_aux b2 (pixelEnd_ge hp.pitch.2 hp.res.2 hy) rfl)
  refine ⟨hl, ?_⟩
  intro k g hg
  obtain ⟨ro, hro, hcor⟩ := hc k g hg
  refine ⟨ro, hro, hcor, ?_⟩
  obtain ⟨hfl, rfl⟩ := inPixel_ok hs hcs h
  have hsz : (areas s p (chunksOf T cs) (startArea s p)).size = (startArea s p).size := by
    refine (areas_hits (done := []) hp h1 ⟨pixelEnd_first _ _, pixelEnd_first _ _⟩ ?_).1
    show List.Forall₂ _ _ (s.regions.map fun _ => Maps.zero)
    clear * -
    induction s.regions with
    | nil => exact .nil
    | cons g gs ih => exact .cons (fun b => by simp [Maps.zero]) ih
  rw [List.getElem?_map, Option.map_eq_some_iff] at hro
  obtain ⟨m, -, rfl⟩ := hro
  show (((shapeOf p _).1 + 2 * 0 : Nat) : ℤ) = _ ∧ (((shapeOf p _).2 + 2 * 0 : Nat) : ℤ) = _
  rw [hsz]
  have key : ∀ pitch res : K, 0 < pitch → 0 < res → ((bins (firstSize pitch res) res + 2 * 0 : Nat) : ℤ) = ⌈pitch / res⌉ := by
    intro pitch res h2 h3
    unfold bins firstSize
    rw [mul_div_cancel_right₀ _ h3.ne', Int.floor_intCast]
    have : 0 < ⌈pitch / res⌉ := Int.ceil_pos.mpr (by positivity)
    omega
  exact ⟨key _ _ hp.pitch.1 hp.res.1, key _ _ hp.pitch.2 hp.res.2⟩

open Classical in
/-- C159, what the code does, for a cell of one pixel: in every chunk in which a track of the region has a close hit, the hits of all tracks of the
region are counted, whether they are close or not; in the other chunks nothing is counted. -/
theorem C159_exact (s : Setup K) (p : Cell K) (hp : Proper p) (h1 : OnePixel p) (T : List (Row K)) (hs : SortedBy Row.event T) (cs : Nat)
    (hcs : 0 < cs) (sc : Scope K) (o : Output K) (os : List (RegionOutput K)) (h : inPixel s p (none, none) T cs sc = .ok (o, os))
    (k : Nat) (g : Region K) (hg : s.regions[k]? = some g) :
    ∃ ro, os[k]? = some ro ∧ ∀ i j, i < ro.shape.1 → j < ro.shape.2 → ro.maps.hits (i, j) =
      ((dataAligned Row.event T { chunkSize := cs }).items.map fun c =>
        if ∃ r ∈ c.1, Used s r ∧ InRegion s g r ∧ Matched s r then
          number c.1 fun r => Used s r ∧ InRegion s g r ∧ HitInSquare p i j r
        else 0).sum := by
  obtain ⟨hfl, rfl⟩ := inPixel_ok hs hcs h
  have hz := (areas_hits (s := s) (cs := chunksOf T cs) (done := []) (a := startArea s p) hp h1
    ⟨pixelEnd_first _ _, pixelEnd_first _ _⟩ (by
      show List.Forall₂ _ _ (s.regions.map fun _ => Maps.zero)
      clear * -
      induction s.regions with
      | nil => exact .nil
      | cons g gs ih => exact .cons (fun b => by simp [Maps.zero]) ih)).2
  generalize areas s p (chunksOf T cs) (startArea s p) = a at hz ⊢
  obtain ⟨m, hm, hok⟩ := forall₂_getElem? hz hg
  refine ⟨_, by rw [List.getElem?_map, hm]; rfl, ?_⟩
  intro i j hi hj
  have hi' : i < (shapeOf p a.size).1 + 2 * 0 := hi
  have hj' : j < (shapeOf p a.size).2 + 2 * 0 := hj
  have e1 : wrapped (shapeOf p a.size).1 0 i = i := wrapped_zero (by omega)
  have e2 : wrapped (shapeOf p a.size).2 0 j = j := wrapped_zero (by omega)
  show m.hits (wrapped (shapeOf p a.size).1 0 i, wrapped (shapeOf p a.size).2 0 j) = _
  rw [e1, e2, hok (i, j), List.nil_append]
  unfold chunksOf
  rw [List.map_map]
  congr 1
  apply List.map_congr_left
  intro c _
  show chunkHits s p g (i, j) c.1 = _
  unfold chunkHits
  by_cases hv : ∃ r ∈ c.1, Used s r ∧ InRegion s g r ∧ Matched s r
  · rw [if_pos hv, if_neg (by rw [valid_nil_iff]; exact not_not.mpr hv), counts_hits s hp]
  · rw [if_neg hv, if_pos ((valid_nil_iff s c.1 g).mpr hv)]

theorem number_append {ρ : Type} (a b : List ρ) (P : ρ → Prop) : number (a ++ b) P = number a P + number b P := by
  unfold number; rw [List.filter_append, List.length_append]

theorem number_congr {ρ : Type} {a : List ρ} {P Q : ρ → Prop} (h : ∀ r ∈ a, (P r ↔ Q r)) : number a P = number a Q := by
  unfold number
  congr 1
  apply List.filter_congr
  intro r hr
  exact decide_eq_decide.mpr (h r hr)

theorem number_zero {ρ : Type} {a : List ρ} {P : ρ → Prop} (h : ∀ r ∈ a, ¬ P r) : number a P = 0 := by
  unfold number
  rw [List.length_eq_zero_iff, List.filter_eq_nil_iff]
  intro r hr hd
  simp only [decide_eq_true_eq] at hd
  exact h r hr hd

theorem number_flatten {ρ : Type} (l : List (List ρ)) (P : ρ → Prop) : number l.flatten P = (l.map fun c => number c P).sum := by
  induction l with
  | nil => simp [number]
  | cons a r ih => rw [List.flatten_cons, number_append, ih]; rfl

/-- C159 if every hit in the region is close to its track (for example without cut): the histogram counts each hit once, in the square of
its position. Missing: hits that are not close, see `C159_far_hit`; cells larger than one pixel. -/
theorem C159_partial (s : Setup K) (p : Cell K) (hp : Proper p) (h1 : OnePixel p) (T : List (Row K)) (hs : SortedBy Row.event T) (cs : Nat)
    (hcs : 0 < cs) (sc : Scope K) (o : Output K) (os : List (RegionOutput K)) (h : inPixel s p (none, none) T cs sc = .ok (o, os))
    (k : Nat) (g : Region K) (hg : s.regions[k]? = some g)
    (hclose : ∀ r ∈ T, Used s r → InRegion s g r → r.hit ≠ none → Matched s r) :
    ∃ ro, os[k]? = some ro ∧ ∀ i j, i < ro.shape.1 → j < ro.shape.2 → ro.maps.hits (i, j) =
      number T fun r => Used s r ∧ InRegion s g r ∧ HitInSquare p i j r ∧ Matched s r := by
  classical
  obtain ⟨ro, hro, hh⟩ := C159_exact s p hp h1 T hs cs hcs sc o os h k g hg
  refine ⟨ro, hro, ?_⟩
  intro i j hi hj
  rw [hh i j hi hj]
  obtain ⟨hfl, -⟩ := inPixel_ok hs hcs h
  have hmem : ∀ c ∈ (dataAligned Row.event T { chunkSize := cs }).items, ∀ r ∈ c.1, r ∈ T := by
    intro c hc r hr
    rw [← hfl]
    exact List.mem_flatten.mpr ⟨c.1, List.mem_map_of_mem hc, hr⟩
  have : number T (fun r => Used s r ∧ InRegion s g r ∧ HitInSquare p i j r ∧ Matched s r) =
      ((dataAligned Row.event T { chunkSize := cs }).items.map fun c =>
        number c.1 fun r => Used s r ∧ InRegion s g r ∧ HitInSquare p i j r ∧ Matched s r).sum := by
    conv_lhs => rw [← hfl]
    rw [number_flatten]
    unfold chunksOf
    rw [List.map_map]; rfl
  rw [this]
  congr 1
  apply List.map_congr_left
  intro c hc
  have hall : ∀ r ∈ c.1, (Used s r ∧ InRegion s g r ∧ HitInSquare p i j r ↔ Used s r ∧ InRegion s g r ∧ HitInSquare p i j r ∧ Matched s r) := by
    intro r hr
    constructor
    · rintro ⟨a1, a2, a3⟩
      refine ⟨a1, a2, a3, hclose r (hmem c hc r hr) a1 a2 ?_⟩
      obtain ⟨x, hx, -⟩ := a3
      rw [hx]; simp
    · rintro ⟨a1, a2, a3, -⟩; exact ⟨a1, a2, a3⟩
  split_ifs with hv
  · exact number_congr hall
  · symm
    exact number_zero fun r hr hd => hv ⟨r, hr, hd.1, hd.2.1, hd.2.2.2⟩

/-- `b` is the number of the bin of a histogram in which a coordinate `x` is found, if bin 0 starts at `-pad` bins. -/
def InExtended (res : K) (pad i : Nat) (x : K) : Prop := ((i : K) - pad) * res ≤ x ∧ x < ((i : K) - pad + 1) * res

omit [FloorRing K] in
theorem extended_fold {res : K} (hr : 0 < res) {n pad i i' : Nat} (hn : 0 < n) {x : K} (hx : InExtended res pad i x) {l : ℤ}
    (h1 : (i' : K) * res ≤ x + l * ((n : K) * res)) (h2 : x + l * ((n : K) * res) < ((i' : K) + 1) * res) (hi : i' < n) :
    wrapped n pad i = i' := by
  obtain ⟨k, hk⟩ := wrapped_eq (i := i) (pad := pad) hn
  have hlt := wrapped_lt (i := i) (pad := pad) hn
  obtain ⟨x1, x2⟩ := hx
  have a1 : (i' : K) < (i : K) - pad + 1 + l * n := by
    have : (i' : K) * res < ((i : K) - pad + 1 + l * n) * res := by nlinarith
    exact lt_of_mul_lt_mul_right this hr.le
  have a2 : (i : K) - pad + l * n < (i' : K) + 1 := by
    have : ((i : K) - pad + l * n) * res < ((i' : K) + 1) * res := by nlinarith
    exact lt_of_mul_lt_mul_right this hr.le
  have b1 : (i' : ℤ) < (i : ℤ) - pad + 1 + l * n := by exact_mod_cast a1
  have b2 : (i : ℤ) - pad + l * n < (i' : ℤ) + 1 := by exact_mod_cast a2
  have e : (i' : ℤ) = (i : ℤ) - pad + l * n := by omega
  have e2 : (wrapped n pad i : ℤ) - i' = (k - l) * n := by rw [hk, e]; ring
  have c1 : ((k - l) * n : ℤ) < n := by rw [← e2]; omega
  have c2 : (-(n : ℤ)) < ((k - l) * n : ℤ) := by rw [← e2]; omega
  have hn' : (0 : ℤ) < n := by exact_mod_cast hn
  have d1 : k - l < 1 := by nlinarith
  have d2 : -1 < k - l := by nlinarith
  have : k - l = 0 := by omega
  rw [this, zero_mul] at e2
  omega

/-- C160 if the histograms are as large as the cell (the size of the cell is a multiple of the resolution): with `extend_in_pixel_areas` every bin
of the extended histograms shows what the histograms without extension show at the position folded back by whole cells. Missing: cells
whose size is not a multiple of the resolution, see `C160_not_a_multiple`. -/
theorem C160_periodic_partial (s : Setup K) (p : Cell K) (hp : Proper p) (ext : Option K × Option K) (T : List (Row K)) (cs : Nat) (sc : Scope K)
    (o : Output K) (os os' : List (RegionOutput K)) (hs : SortedBy Row.event T) (hcs : 0 < cs)
    (h : inPixel s p (none, none) T cs sc = .ok (o, os)) (h' : inPixel s p ext T cs sc = .ok (o, os')) (k : Nat) (ro ro' : RegionOutput K)
    (hk : os[k]? = some ro) (hk' : os'[k]? = some ro') :
    ∃ padX padY : Nat, ro'.shape = (ro.shape.1 + 2 * padX, ro.shape.2 + 2 * padY) ∧
    (∀ e, ext.1 = some e → e ≤ (padX : K) * p.res.1) ∧ (∀ e, ext.2 = some e → e ≤ (padY : K) * p.res.2) ∧
    (ext.1 = none → padX = 0) ∧ (ext.2 = none → padY = 0) ∧
    ∀ (x y : K) (i j i' j' : Nat) (a b : ℤ), InExtended p.res.1 padX i x → InExtended p.res.2 padY j y →
      i' < ro.shape.1 → j' < ro.shape.2 →
      InSquare p i' j' (x + a * ((ro.shape.1 : K) * p.res.1), y + b * ((ro.shape.2 : K) * p.res.2)) →
      ro'.maps.tracks (i, j) = ro.maps.tracks (i', j') ∧ ro'.maps.withHit (i, j) = ro.maps.withHit (i', j') ∧
      ro'.maps.hits (i, j) = ro.maps.hits (i', j') ∧ (∀ q, ro'.maps.means q (i, j) = ro.maps.means q (i', j')) ∧
      ro'.efficiency (i, j) = ro.efficiency (i', j') ∧ ro'.mask (i, j) = ro.mask (i', j') := by
  obtain ⟨-, rfl⟩ := inPixel_ok hs hcs h
  obtain ⟨-, rfl⟩ := inPixel_ok hs hcs h'
  generalize areas s p (chunksOf T cs) (startArea s p) = ar at hk hk'
  rw [List.getElem?_map, Option.map_eq_some_iff] at hk hk'
  obtain ⟨m, hm, rfl⟩ := hk
  obtain ⟨m', hm', rfl⟩ := hk'
  rw [hm] at hm'
  obtain rfl := Option.some.inj hm'
  have hpad : ∀ (e : Option K) (res : K), 0 < res → ∀ v, e = some v → v ≤ (padBins e res : K) * res := by
    rintro e res hr v rfl
    unfold padBins
    have h1 : v / res ≤ (⌈v / res⌉ : K) := Int.le_ceil _
    rw [div_le_iff₀ hr] at h1
    refine le_trans h1 (mul_le_mul_of_nonneg_right ?_ hr.le)
    have : ((⌈v / res⌉ : ℤ) : K) ≤ ((⌈v / res⌉.toNat : ℤ) : K) := by exact_mod_cast Int.self_le_toNat _
    exact_mod_cast this
  refine ⟨padBins ext.1 p.res.1, padBins ext.2 p.res.2, rfl, hpad _ _ hp.res.1, hpad _ _ hp.res.2, ?_, ?_, ?_⟩
  · intro he; rw [he]; rfl
  · intro he; rw [he]; rfl
  · intro x y i j i' j' a b hx hy hi' hj' hsq
    have hi2 : i' < (shapeOf p ar.size).1 + 2 * 0 := hi'
    have hj2 : j' < (shapeOf p ar.size).2 + 2 * 0 := hj'
    obtain ⟨q1, q2, q3, q4⟩ := hsq
    have hi3 : i' < (shapeOf p ar.size).1 := by omega
    have hj3 : j' < (shapeOf p ar.size).2 := by omega
    have e1 : wrapped (shapeOf p ar.size).1 (padBins ext.1 p.res.1) i = i' :=
      extended_fold hp.res.1 (by omega) hx (l := a) q1 q2 hi3
    have e2 : wrapped (shapeOf p ar.size).2 (padBins ext.2 p.res.2) j = j' :=
      extended_fold hp.res.2 (by omega) hy (l := b) q3 q4 hj3
    have e3 : wrapped (shapeOf p ar.size).1 0 i' = i' := wrapped_zero hi3
    have e4 : wrapped (shapeOf p ar.size).2 0 j' = j' := wrapped_zero hj3
    have eb : (wrapped (shapeOf p ar.size).1 (padBins ext.1 p.res.1) i, wrapped (shapeOf p ar.size).2 (padBins ext.2 p.res.2) j) =
        (wrapped (shapeOf p ar.size).1 0 i', wrapped (shapeOf p ar.size).2 0 j') := by rw [e1, e2, e3, e4]
    exact ⟨congrArg m.tracks eb, congrArg m.withHit eb, congrArg m.hits eb, fun q => congrArg (m.means q) eb,
      congrArg (regionOutput s (shapeOf p ar.size) m).efficiency eb, congrArg (regionOutput s (shapeOf p ar.size) m).mask eb⟩

/-! ### Concrete cases -/

/-- A DUT with pixels of 10 x 10, squares of 5 x 5, positions folded modulo one pixel. -/
def onePixel : Cell ℚ := ⟨(10, 10), (5, 5), fun x y => (x - 10 * ⌊x / 10⌋, y - 10 * ⌊y / 10⌋)⟩

/-- The same DUT with a cell of two columns. -/
def twoColumns : Cell ℚ := { onePixel with fold := fun x y => (x - 20 * ⌊x / 20⌋, y - 10 * ⌊y / 10⌋) }

/-- One region on the two pixels of the DUT of C45, cut of 2. -/
def setup2 : Setup ℚ := { Efficiency.Props.setup with regions := [⟨(0, 20), (0, 10)⟩] }

theorem proper_one : Proper onePixel := by
  refine ⟨by unfold onePixel; norm_num, by unfold onePixel; norm_num, ?_⟩
  intro x y
  have h : ∀ z : ℚ, 0 ≤ z - 10 * ⌊z / 10⌋ := by
    intro z
    have := Int.floor_le (z / 10)
    linarith
  exact ⟨h x, h y⟩

theorem onePixel_one : OnePixel onePixel := by
  intro x y
  have h : ∀ z : ℚ, z - 10 * ⌊z / 10⌋ < 10 := by
    intro z
    have := Int.lt_floor_add_one (z / 10)
    linarith
  exact ⟨h x, h y⟩

theorem proper_two : Proper twoColumns := by
  refine ⟨by unfold twoColumns onePixel; norm_num, by unfold twoColumns onePixel; norm_num, ?_⟩
  intro x y
  have h : ∀ z : ℚ, 0 ≤ z - 10 * ⌊z / 10⌋ := by
    intro z
    have := Int.floor_le (z / 10)
    linarith
  have h2 : ∀ z : ℚ, 0 ≤ z - 20 * ⌊z / 20⌋ := by
    intro z
    have := Int.floor_le (z / 20)
    linarith
  exact ⟨h2 x, h y⟩

/-- The in-pixel results of the regions for a first DUT. -/
def runs (p : Cell ℚ) (ext : Option ℚ × Option ℚ) (T : List (Row ℚ)) (cs : Nat) : Option (List (RegionOutput ℚ)) :=
  (inPixel setup2 p ext T cs ⟨none, none⟩).toOption.map Prod.snd

/-- The hypotheses of `C158_pixel` are met; 2 x 2 squares; tracks and efficiencies do not depend on the chunk size. -/
example : SortedBy Row.event Efficiency.Props.tableA ∧ Proper onePixel ∧ OnePixel onePixel ∧
    ∀ cs ∈ [3, 100], (runs onePixel (none, none) Efficiency.Props.tableA cs).map (fun os => os.map fun o =>
      (o.shape, [o.maps.tracks (0, 1), o.maps.tracks (1, 1)])) = some [((2, 2), [1, 5])] ∧
      (runs onePixel (none, none) Efficiency.Props.tableA cs).map (fun os => os.map fun o =>
        [o.efficiency (0, 1), o.efficiency (1, 1), o.efficiency (0, 0), some (o.maps.means .charge (1, 1))]) =
        some [[some 100, some 40, none, some 3]] := by
  refine ⟨by unfold SortedBy; decide +kernel, proper_one, onePixel_one, by decide +kernel⟩

/-- The hypotheses of `C158_large_cell_partial` are met with a cell of two columns: the histogram grows in a later chunk, when a track
in the second column is found; with one chunk it has this size at once. -/
example : SortedBy Row.event Efficiency.Props.tableA ∧ Proper twoColumns ∧
    (∀ r ∈ Efficiency.Props.tableA, ¬ OnBorder twoColumns (cellPos setup2 twoColumns r)) ∧
    ∀ cs ∈ [3, 100], (runs twoColumns (none, none) Efficiency.Props.tableA cs).map (fun os => os.map fun o =>
      (o.shape, (List.range 4).map fun i => o.maps.tracks (i, 1))) = some [((4, 2), [1, 3, 0, 2])] := by
  refine ⟨by unfold SortedBy; decide +kernel, proper_two, ?_, by decide +kernel⟩
  have key : ∀ (n : Nat) (z : ℚ), z = (⌈(n : ℚ) * 10 / 5⌉ : ℚ) * 5 → z = 10 * n := by
    intro n z hz
    have : (n : ℚ) * 10 / 5 = ((2 * n : ℤ) : ℚ) := by push_cast; ring
    rw [this, Int.ceil_intCast] at hz
    rw [hz]; push_cast; ring
  have hx : ∀ r ∈ Efficiency.Props.tableA, (cellPos setup2 twoColumns r).1 ∈ [(4 : ℚ), 5, 6, 7, 15, 16] ∧ (cellPos setup2 twoColumns r).2 = 5 := by
    decide +kernel
  have no : ∀ (n : Nat) (z : ℤ), z % 10 ≠ 0 → (z : ℚ) ≠ 10 * n := by
    intro n z hz he
    have : z = 10 * (n : ℤ) := by exact_mod_cast he
    omega
  intro r hr hbd
  obtain ⟨h1, h2⟩ := hx r hr
  rcases hbd with ⟨n, -, he⟩ | ⟨n, -, he⟩
  · have he' := key n _ he
    rw [he'] at h1
    simp only [List.mem_cons, List.not_mem_nil, or_false] at h1
    rcases h1 with h | h | h | h | h | h
    · exact no n 4 (by decide) (by exact_mod_cast h.symm)
    · exact no n 5 (by decide) (by exact_mod_cast h.symm)
    · exact no n 6 (by decide) (by exact_mod_cast h.symm)
    · exact no n 7 (by decide) (by exact_mod_cast h.symm)
    · exact no n 15 (by decide) (by exact_mod_cast h.symm)
    · exact no n 16 (by decide) (by exact_mod_cast h.symm)
  · have he' := key n _ he
    rw [h2] at he'
    exact no n 5 (by decide) (by exact_mod_cast he')

/-- Tracks at (4, 5), (10, 5), (4, 5) and (15, 5): the second one is exactly at the end of the first pixel. -/
def tableBorder : List (Row ℚ) :=
  [Efficiency.Props.trk 1 4 (some 0), Efficiency.Props.trk 2 10 (some 0), Efficiency.Props.trk 3 4 (some 0), Efficiency.Props.trk 4 15 (some 0)]

/-- C158, negation: a track exactly at the end of the first pixel of a larger cell is counted in square 1 (5 to 10) if the histograms have not yet
grown, and in square 2 (10 to 15) otherwise; the result depends on the chunk size. -/
theorem C158_border : Proper twoColumns ∧ SortedBy Row.event tableBorder ∧
    (runs twoColumns (none, none) tableBorder 3).map (fun os => os.map fun o => (List.range 4).map fun i => o.maps.tracks (i, 1)) =
      some [[2, 1, 0, 1]] ∧
    (runs twoColumns (none, none) tableBorder 100).map (fun os => os.map fun o => (List.range 4).map fun i => o.maps.tracks (i, 1)) =
      some [[2, 0, 1, 1]] := by
  refine ⟨proper_two, by unfold SortedBy; decide +kernel, by decide +kernel, by decide +kernel⟩

/-- Two tracks with a hit at the distance 5 (more than the cut of 2) after two tracks with a close hit. -/
def tableFar : List (Row ℚ) :=
  [Efficiency.Props.trk 1 4 (some 0), Efficiency.Props.trk 2 4 (some 0), Efficiency.Props.trk 3 2 (some 6), Efficiency.Props.trk 4 2 (some 6)]

/-- C159, negation: hits that are not close to the track are counted, and whether they are depends on the chunk size. -/
theorem C159_far_hit : SortedBy Row.event tableFar ∧
    (∀ r ∈ tableFar.drop 2, ¬ Matched setup2 r) ∧
    (runs onePixel (none, none) tableFar 100).map (fun os => os.map fun o => [o.maps.hits (0, 1), o.maps.hits (1, 1)]) = some [[2, 2]] ∧
    (runs onePixel (none, none) tableFar 3).map (fun os => os.map fun o => [o.maps.hits (0, 1), o.maps.hits (1, 1)]) = some [[2, 0]] := by
  refine ⟨by unfold SortedBy; decide +kernel, ?_, by decide +kernel, by decide +kernel⟩
  intro r hr
  rw [← validHit_iff]
  have : ∀ r ∈ tableFar.drop 2, ¬ validHit setup2 (shifted setup2 r) = true := by decide +kernel
  exact this r hr

/-- The hypotheses of `C159_partial` are met: all hits are close. -/
example : (∀ r ∈ tableBorder, Matched setup2 r) ∧
    ∀ cs ∈ [2, 3, 100], (runs onePixel (none, none) tableBorder cs).map (fun os => os.map fun o => [o.maps.hits (0, 1), o.maps.hits (1, 1)]) =
      some [[3, 1]] := by
  refine ⟨?_, by decide +kernel⟩
  intro r hr
  rw [← validHit_iff]
  have : ∀ r ∈ tableBorder, validHit setup2 (shifted setup2 r) = true := by decide +kernel
  exact this r hr

/-- `C160_periodic_partial`: extension by 7 (2 bins) in x; bins 2 and 3 are the pixel. -/
example : (runs onePixel (some 7, none) Efficiency.Props.tableA 3).map (fun os => os.map fun o =>
      (o.shape, (List.range 6).map fun i => o.maps.tracks (i, 1))) = some [((6, 2), [1, 5, 1, 5, 1, 5])] := by
  decide +kernel

/-- The cell of one pixel with squares of 4 x 5: 10 is not a multiple of 4. -/
def uneven : Cell ℚ := { onePixel with res := (4, 5) }

/-- C160, negation: if the size of the pixel is not a multiple of the resolution, the histogram ends beyond the pixel (at 12) and the periodic
extension is shifted. The track at 1 is also at the position 11 of the next pixel, but the bin from 8 to 12 has no track; the bin from 12 to
16 has it. -/
theorem C160_not_a_multiple : (uneven.fold 11 5 = uneven.fold 1 5) ∧ (uneven.fold 12 5 ≠ uneven.fold 1 5) ∧
    (runs uneven (some 4, none) [Efficiency.Props.trk 1 1 (some 0)] 3).map (fun os => os.map fun o =>
      (o.shape, (List.range 5).map fun i => o.maps.tracks (i, 1))) = some [((5, 2), [0, 1, 0, 0, 1])] ∧
    InExtended (4 : ℚ) 1 3 11 ∧ InExtended (4 : ℚ) 1 4 12 := by
  refine ⟨by decide +kernel, by decide +kernel, by decide +kernel, by unfold InExtended; norm_num, by unfold InExtended; norm_num⟩

end BTA.InPixel.Props
