import Verif.Spec.ClusterShape
import Verif.Props.Bits

/-! Property C47: the summary of a cluster. -/

namespace BTA.Cluster.Props
open BTA.Props BTA.Cluster BTA.Cluster.Spec

/-- The accumulated values describe the hits `cl` with first hit `c`. -/
structure Acc.Of (c : Hit) (cl : List Hit) (a : Acc) : Prop where
  minCol : IsSmallest Hit.column cl a.minCol
  maxCol : IsLargest Hit.column cl a.maxCol
  minRow : IsSmallest Hit.row cl a.minRow
  maxRow : IsLargest Hit.row cl a.maxRow
  minFrame : IsSmallest Hit.frame cl a.minFrame
  mem : c ∈ cl
  arr : ∀ x y : Nat, a.arr x y = true ↔ x < 15 ∧ y < 15 ∧ ∃ h ∈ cl, h.column + 7 = c.column + x ∧ h.row + 7 = c.row + y

theorem of_first (c : Hit) : Acc.Of c [c] (first c) := by
  refine ⟨⟨⟨c, by simp, rfl⟩, by simp [first]⟩, ⟨⟨c, by simp, rfl⟩, by simp [first]⟩, ⟨⟨c, by simp, rfl⟩, by simp [first]⟩,
    ⟨⟨c, by simp, rfl⟩, by simp [first]⟩, ⟨⟨c, by simp, rfl⟩, by simp [first]⟩, by simp, ?_⟩
  intro x y
  simp only [first, decide_eq_true_eq, List.mem_singleton, exists_eq_left]
  omega

theorem least_append (f : Hit → Nat) {cl : List Hit} {v : Nat} (hv : IsSmallest f cl v) (h : Hit) :
    IsSmallest f (cl ++ [h]) (if f h < v then f h else v) := by
  obtain ⟨⟨g, hg, rfl⟩, hl⟩ := hv
  split
  · refine ⟨⟨h, by simp, rfl⟩, ?_⟩
    intro k hk
    rcases List.mem_append.mp hk with hk | hk
    · have := hl k hk; omega
    · rw [List.mem_singleton] at hk; subst hk; exact Nat.le_refl _
  · refine ⟨⟨g, by simp [hg], rfl⟩, ?_⟩
    intro k hk
    rcases List.mem_append.mp hk with hk | hk
    · exact hl k hk
    · rw [List.mem_singleton] at hk; subst hk; omega

theorem largest_append (f : Hit → Nat) {cl : List Hit} {v : Nat} (hv : IsLargest f cl v) (h : Hit) :
    IsLargest f (cl ++ [h]) (if f h > v then f h else v) := by
  obtain ⟨⟨g, hg, rfl⟩, hl⟩ := hv
  split
  · refine ⟨⟨h, by simp, rfl⟩, ?_⟩
    intro k hk
    rcases List.mem_append.mp hk with hk | hk
    · have := hl k hk; omega
    · rw [List.mem_singleton] at hk; subst hk; exact Nat.le_refl _
  · refine ⟨⟨g, by simp [hg], rfl⟩, ?_⟩
    intro k hk
    rcases List.mem_append.mp hk with hk | hk
    · exact hl k hk
    · rw [List.mem_singleton] at hk; subst hk; omega

theorem of_step {c : Hit} {cl : List Hit} {a : Acc} (ha : Acc.Of c cl a) (h : Hit) : Acc.Of c (cl ++ [h]) (accStep c a h) := by
  refine ⟨least_append _ ha.minCol h, largest_append _ ha.maxCol h, least_append _ ha.minRow h, largest_append _ ha.maxRow h,
    least_append _ ha.minFrame h, by simp [ha.mem], ?_⟩
  intro x y
  have hex : (∃ k ∈ cl ++ [h], k.column + 7 = c.column + x ∧ k.row + 7 = c.row + y) ↔
      (∃ k ∈ cl, k.column + 7 = c.column + x ∧ k.row + 7 = c.row + y) ∨ (h.column + 7 = c.column + x ∧ h.row + 7 = c.row + y) := by
    simp only [List.mem_append, List.mem_singleton]
    constructor
    · rintro ⟨k, hk | rfl, h'⟩
      · exact .inl ⟨k, hk, h'⟩
      · exact .inr h'
    · rintro (⟨k, hk, h'⟩ | h')
      · exact ⟨k, .inl hk, h'⟩
      · exact ⟨h, .inr rfl, h'⟩
  rw [hex]
  have harr := ha.arr x y
  simp only [accStep]
  split
  · next hd =>
    beta_reduce
    split
    · next he =>
      constructor
      · intro _; exact ⟨by omega, by omega, .inr (by omega)⟩
      · intro _; rfl
    · next he =>
      rw [harr]
      constructor
      · rintro ⟨h1, h2, h3⟩; exact ⟨h1, h2, .inl h3⟩
      · rintro ⟨h1, h2, h3 | h3⟩
        · exact ⟨h1, h2, h3⟩
        · exact absurd (by omega) he
  · next hd =>
    rw [harr]
    constructor
    · rintro ⟨h1, h2, h3⟩; exact ⟨h1, h2, .inl h3⟩
    · rintro ⟨h1, h2, h3 | h3⟩
      · exact ⟨h1, h2, h3⟩
      · exact absurd (by omega) hd

theorem accLoop_of {hits : List Hit} {c : Hit} (used : List Nat) (rest : List Int) (hrest : ∀ i ∈ rest.head?, i < 0)
    (cl' cl : List Hit) (a : Acc) (ha : Acc.Of c cl a) (hu : used.map (fun i => hits[i]?) = cl'.map some) :
    ∃ a', accLoop hits c (used.map (fun i : Nat => (i : Int)) ++ rest) a = some a' ∧ Acc.Of c (cl ++ cl') a' := by
  induction used generalizing cl' cl a with
  | nil =>
    simp only [List.map_nil] at hu
    have : cl' = [] := by simpa using hu.symm
    subst this
    refine ⟨a, ?_, by simpa using ha⟩
    cases rest with
    | nil => rfl
    | cons i r =>
      have : i < 0 := hrest i rfl
      simp [accLoop, this]
  | cons i used ih =>
    cases cl' with
    | nil => simp at hu
    | cons h cl' =>
      simp only [List.map_cons, List.cons.injEq] at hu
      obtain ⟨a', h1, h2⟩ := ih cl' (cl ++ [h]) _ (of_step ha h) hu.2
      refine ⟨a', ?_, by simpa using h2⟩
      rw [List.map_cons, List.cons_append, accLoop, if_neg (by omega), Int.toNat_natCast, hu.1]
      exact h1

/-- The result for the hits of a cluster. -/
theorem endOfCluster_of {hits : List Hit} {indices : List Int} {cl : List Hit} (hd : Denotes hits indices cl) (hne : cl ≠ []) :
    ∃ c a, Acc.Of c cl a ∧ endOfCluster hits indices =
      some ⟨shapeNumber c a, (a.maxCol : Int) - a.minCol, (a.maxRow : Int) - a.minRow, a.minFrame⟩ := by
  obtain ⟨used, rest, rfl, hrest, hu⟩ := hd
  cases cl with
  | nil => exact absurd rfl hne
  | cons c cl =>
    cases used with
    | nil => simp at hu
    | cons i used =>
      simp only [List.map_cons, List.cons.injEq] at hu
      obtain ⟨a, h1, h2⟩ := accLoop_of used rest hrest cl [c] _ (of_first c) hu.2
      refine ⟨c, a, h2, ?_⟩
      unfold endOfCluster
      simp only [List.map_cons, List.cons_append, Int.toNat_natCast, hu.1, h1]

theorem least_unique {f : Hit → Nat} {cl : List Hit} {v w : Nat} (hv : IsSmallest f cl v) (hw : IsSmallest f cl w) : v = w := by
  obtain ⟨⟨g, hg, rfl⟩, h1⟩ := hv
  obtain ⟨⟨g', hg', rfl⟩, h2⟩ := hw
  have := h1 g' hg'
  have := h2 g hg
  omega

/-- The 8 x 8 array of the code: pixels of the cluster relative to the corner. -/
theorem array_of {c : Hit} {cl : List Hit} {a : Acc} (ha : Acc.Of c cl a) (x y : Nat) (hx : x < 8) (hy : y < 8)
    (h : a.maxCol - a.minCol < 8 ∧ a.maxRow - a.minRow < 8) :
    a.arr ((7 + a.minCol - c.column : Int).toNat + x) ((7 + a.minRow - c.row : Int).toNat + y) = true ↔
      ∃ k ∈ cl, k.column = a.minCol + x ∧ k.row = a.minRow + y := by
  have h1 := ha.minCol.2 c ha.mem
  have h2 := ha.maxCol.2 c ha.mem
  have h3 := ha.minRow.2 c ha.mem
  have h4 := ha.maxRow.2 c ha.mem
  rw [ha.arr]
  constructor
  · rintro ⟨-, -, k, hk, e1, e2⟩; exact ⟨k, hk, by omega, by omega⟩
  · rintro ⟨k, hk, e1, e2⟩; exact ⟨by omega, by omega, k, hk, by omega, by omega⟩

theorem code_eq_bit : ∀ x < 8, ∀ y < 8, (xy2dMorton (BitVec.ofNat 32 x) (BitVec.ofNat 32 y)).toNat = bit x y := by
  decide +kernel

theorem bit_lt : ∀ x < 8, ∀ y < 8, (x, y) ≠ (7, 7) → bit x y < 63 := by decide +kernel

/-- Without the last pixel the number fits into int64. -/
theorem shape_lt (b : Nat → Nat → Bool) (h : b 7 7 = false) : clusterShape b < 2 ^ 63 := by
  obtain ⟨h1, h2⟩ := clusterShape_bits b
  have h3 := h2 7 (by omega) 7 (by omega)
  rw [h, show (xy2dMorton (BitVec.ofNat 32 7) (BitVec.ofNat 32 7)).toNat = 63 by decide +kernel] at h3
  by_contra hge
  have : (clusterShape b).testBit 63 = true := by
    rw [Nat.testBit_eq_decide_div_mod_eq]
    have : clusterShape b / 2 ^ 63 = 1 := by omega
    rw [this]; rfl
  rw [this] at h3
  exact absurd h3 (by simp)

/-- C47: the shape is -1 exactly if the cluster does not fit; otherwise its bits are the pixels of the cluster relative to
the smallest column and row. -/
theorem C47_shape (hits : List Hit) (indices : List Int) (cl : List Hit) (hd : Denotes hits indices cl) (hne : cl ≠ []) :
    ∃ r, endOfCluster hits indices = some r ∧ (r.shape = -1 ↔ ¬ Fits cl) ∧
      (Fits cl → 0 ≤ r.shape ∧ r.shape < 2 ^ 63 ∧ ∀ c0 r0, IsSmallest Hit.column cl c0 → IsSmallest Hit.row cl r0 → ∀ x < 8, ∀ y < 8,
        (r.shape.toNat.testBit (bit x y) = true ↔ ∃ h ∈ cl, h.column = c0 + x ∧ h.row = r0 + y)) := by
  obtain ⟨c, a, ha, he⟩ := endOfCluster_of hd hne
  refine ⟨_, he, ?_⟩
  dsimp only
  have hfits : Fits cl ↔ (a.maxCol - a.minCol < 8 ∧ a.maxRow - a.minRow < 8) ∧
      ¬ ∃ h ∈ cl, h.column = a.minCol + 7 ∧ h.row = a.minRow + 7 := by
    constructor
    · rintro ⟨c0, r0, h1, h2, h3, h4⟩
      have e1 := least_unique h1 ha.minCol
      have e2 := least_unique h2 ha.minRow
      subst e1 e2
      obtain ⟨⟨g, hg, hge⟩, -⟩ := ha.maxCol
      obtain ⟨⟨k, hk, hke⟩, -⟩ := ha.maxRow
      have := h3 g hg
      have := h3 k hk
      exact ⟨⟨by omega, by omega⟩, h4⟩
    · rintro ⟨h1, h2⟩
      refine ⟨a.minCol, a.minRow, ha.minCol, ha.minRow, ?_, h2⟩
      intro h hh
      have := ha.maxCol.2 h hh
      have := ha.maxRow.2 h hh
      have := ha.minCol.2 h hh
      have := ha.minRow.2 h hh
      omega
  unfold shapeNumber
  by_cases hsize : a.maxCol - a.minCol < 8 ∧ a.maxRow - a.minRow < 8
  · rw [if_pos hsize]
    unfold arrayNumber
    have h77 := array_of ha 7 7 (by omega) (by omega) hsize
    by_cases hcorner : ∃ h ∈ cl, h.column = a.minCol + 7 ∧ h.row = a.minRow + 7
    · rw [if_pos (h77.mpr hcorner)]
      refine ⟨?_, ?_⟩
      · simp only [true_iff]
        intro hf; exact (hfits.mp hf).2 hcorner
      · intro hf; exact absurd hcorner (hfits.mp hf).2
    · have hf : Fits cl := hfits.mpr ⟨hsize, hcorner⟩
      have h77' := mt h77.mp hcorner
      rw [if_neg h77']
      have hlt := shape_lt
        (fun x y => a.arr ((7 + a.minCol - c.column : Int).toNat + x) ((7 + a.minRow - c.row : Int).toNat + y)) (Bool.eq_false_iff.mpr h77')
      unfold toInt64
      rw [if_pos hlt]
      refine ⟨?_, ?_⟩
      · constructor
        · intro h; exact absurd h (by omega)
        · intro h; exact absurd hf h
      · intro _
        refine ⟨by omega, by exact_mod_cast hlt, ?_⟩
        intro c0 r0 hc hr x hx y hy
        have e1 := least_unique hc ha.minCol
        have e2 := least_unique hr ha.minRow
        subst e1 e2
        rw [Int.toNat_natCast, ← code_eq_bit x hx y hy, (clusterShape_bits _).2 x hx y hy]
        exact array_of ha x y hx hy hsize
  · rw [if_neg hsize]
    refine ⟨?_, ?_⟩
    · simp only [true_iff]
      intro hf; exact hsize (hfits.mp hf).1
    · intro hf; exact absurd (hfits.mp hf).1 hsize

/-- C47: extent (before the position error overwrites it) and frame are those of the hits of the cluster. -/
theorem C47_extent (hits : List Hit) (indices : List Int) (cl : List Hit) (hd : Denotes hits indices cl) (hne : cl ≠ [])
    (c0 c1 r0 r1 : Nat) (h1 : IsSmallest Hit.column cl c0) (h2 : IsLargest Hit.column cl c1) (h3 : IsSmallest Hit.row cl r0)
    (h4 : IsLargest Hit.row cl r1) :
    ∃ r, endOfCluster hits indices = some r ∧ r.errColumn = (c1 : Int) - c0 ∧ r.errRow = (r1 : Int) - r0 ∧
      IsSmallest Hit.frame cl r.frame := by
  obtain ⟨c, a, ha, he⟩ := endOfCluster_of hd hne
  have largest_unique : ∀ (f : Hit → Nat) (v w : Nat), IsLargest f cl v → IsLargest f cl w → v = w := by
    rintro f v w ⟨⟨g, hg, rfl⟩, h1⟩ ⟨⟨g', hg', rfl⟩, h2⟩
    have := h1 g' hg'
    have := h2 g hg
    omega
  refine ⟨_, he, ?_, ?_, ha.minFrame⟩
  · rw [least_unique h1 ha.minCol, largest_unique _ _ _ h2 ha.maxCol]
  · rw [least_unique h3 ha.minRow, largest_unique _ _ _ h4 ha.maxRow]

/-- Only 8 x 8 entries matter. -/
theorem arrayNumber_congr (p q : Nat → Nat → Bool) (h : ∀ x < 8, ∀ y < 8, p x y = q x y) : arrayNumber p = arrayNumber q := by
  have hnz : nonzero 8 8 p = nonzero 8 8 q := by
    unfold nonzero
    apply List.flatMap_congr
    intro x hx
    rw [List.mem_range] at hx
    congr 1
    apply List.filter_congr
    intro y hy
    rw [List.mem_range] at hy
    exact h x hx y hy
  unfold arrayNumber clusterShape
  rw [hnz]
  simp only [h 7 (by omega) 7 (by omega)]

/-- C47: the result does not depend on the order of the hits of the cluster, nor on their position in the table. -/
theorem C47_order (hits hits' : List Hit) (indices indices' : List Int) (cl cl' : List Hit) (hd : Denotes hits indices cl)
    (hd' : Denotes hits' indices' cl') (hne : cl ≠ []) (hsame : ∀ h, h ∈ cl ↔ h ∈ cl') :
    endOfCluster hits indices = endOfCluster hits' indices' := by
  have hne' : cl' ≠ [] := by
    obtain ⟨h, hh⟩ := List.exists_mem_of_ne_nil _ hne
    intro h0
    have := (hsame h).mp hh
    rw [h0] at this
    simp at this
  obtain ⟨c, a, ha, he⟩ := endOfCluster_of hd hne
  obtain ⟨c', a', ha', he'⟩ := endOfCluster_of hd' hne'
  have hl : ∀ (f : Hit → Nat) (v w : Nat), IsSmallest f cl v → IsSmallest f cl' w → v = w := by
    rintro f v w ⟨⟨g, hg, rfl⟩, h1⟩ ⟨⟨g', hg', rfl⟩, h2⟩
    have := h1 g' ((hsame g').mpr hg')
    have := h2 g ((hsame g).mp hg)
    omega
  have hg : ∀ (f : Hit → Nat) (v w : Nat), IsLargest f cl v → IsLargest f cl' w → v = w := by
    rintro f v w ⟨⟨g, hg, rfl⟩, h1⟩ ⟨⟨g', hg', rfl⟩, h2⟩
    have := h1 g' ((hsame g').mpr hg')
    have := h2 g ((hsame g).mp hg)
    omega
  have e1 := hl _ _ _ ha.minCol ha'.minCol
  have e2 := hg _ _ _ ha.maxCol ha'.maxCol
  have e3 := hl _ _ _ ha.minRow ha'.minRow
  have e4 := hg _ _ _ ha.maxRow ha'.maxRow
  have e5 := hl _ _ _ ha.minFrame ha'.minFrame
  rw [he, he', e1, e2, e3, e4, e5]
  congr 2
  unfold shapeNumber
  rw [e1, e2, e3, e4]
  by_cases hsize : a'.maxCol - a'.minCol < 8 ∧ a'.maxRow - a'.minRow < 8
  · rw [if_pos hsize, if_pos hsize]
    dsimp only
    have hpt : ∀ x < 8, ∀ y < 8,
        a.arr ((7 + a'.minCol - c.column : Int).toNat + x) ((7 + a'.minRow - c.row : Int).toNat + y) =
        a'.arr ((7 + a'.minCol - c'.column : Int).toNat + x) ((7 + a'.minRow - c'.row : Int).toNat + y) := by
      intro x hx y hy
      rw [Bool.eq_iff_iff, array_of ha' x y hx hy hsize]
      have := array_of ha x y hx hy (by rw [e1, e2, e3, e4]; exact hsize)
      rw [e1, e3] at this
      rw [this]
      constructor
      · rintro ⟨k, hk, h⟩; exact ⟨k, (hsame k).mp hk, h⟩
      · rintro ⟨k, hk, h⟩; exact ⟨k, (hsame k).mpr hk, h⟩
    exact arrayNumber_congr _ _ hpt
  · rw [if_neg hsize, if_neg hsize]

/-- C47: clusters with a shape number have the same number exactly if they are the same set of pixels up to a shift. -/
theorem C47_same_shape (hits hits' : List Hit) (indices indices' : List Int) (cl cl' : List Hit) (hd : Denotes hits indices cl)
    (hd' : Denotes hits' indices' cl') (hne : cl ≠ []) (hne' : cl' ≠ []) (hf : Fits cl) (hf' : Fits cl')
    (c0 r0 c0' r0' : Nat) (h1 : IsSmallest Hit.column cl c0) (h2 : IsSmallest Hit.row cl r0) (h1' : IsSmallest Hit.column cl' c0')
    (h2' : IsSmallest Hit.row cl' r0') :
    ((endOfCluster hits indices).map Summary.shape = (endOfCluster hits' indices').map Summary.shape) ↔
    ∀ x y, (∃ h ∈ cl, h.column = c0 + x ∧ h.row = r0 + y) ↔ (∃ h ∈ cl', h.column = c0' + x ∧ h.row = r0' + y) := by
  obtain ⟨r, he, -, hr⟩ := C47_shape hits indices cl hd hne
  obtain ⟨r', he', -, hr'⟩ := C47_shape hits' indices' cl' hd' hne'
  obtain ⟨p1, p2, p3⟩ := hr hf
  obtain ⟨q1, q2, q3⟩ := hr' hf'
  have p3 := p3 c0 r0 h1 h2
  have q3 := q3 c0' r0' h1' h2'
  have hin : ∀ (l : List Hit) (a b : Nat), Fits l → IsSmallest Hit.column l a → IsSmallest Hit.row l b → ∀ x y,
      (∃ h ∈ l, h.column = a + x ∧ h.row = b + y) → x < 8 ∧ y < 8 := by
    rintro l a b ⟨a', b', k1, k2, k3, -⟩ m1 m2 x y ⟨h, hh, e1, e2⟩
    have := least_unique k1 m1
    have := least_unique k2 m2
    have := k3 h hh
    omega
  rw [he, he']
  simp only [Option.map_some, Option.some.injEq]
  constructor
  · intro hs x y
    constructor
    · intro h
      obtain ⟨hx, hy⟩ := hin cl c0 r0 hf h1 h2 x y h
      rw [← q3 x hx y hy, ← hs, p3 x hx y hy]; exact h
    · intro h
      obtain ⟨hx, hy⟩ := hin cl' c0' r0' hf' h1' h2' x y h
      rw [← p3 x hx y hy, hs, q3 x hx y hy]; exact h
  · intro h
    have : r.shape.toNat = r'.shape.toNat := by
      apply Nat.eq_of_testBit_eq
      intro i
      by_cases hi : i < 64
      · obtain ⟨hx, hy, hc⟩ := code_decode i hi
        rw [code_eq_bit _ hx _ hy] at hc
        rw [← hc, Bool.eq_iff_iff, p3 _ hx _ hy, q3 _ hx _ hy]
        exact h _ _
      · rw [Nat.testBit_lt_two_pow, Nat.testBit_lt_two_pow]
        · exact Nat.lt_of_lt_of_le (by omega) (Nat.pow_le_pow_right (by omega) (show 63 ≤ i by omega))
        · exact Nat.lt_of_lt_of_le (by omega) (Nat.pow_le_pow_right (by omega) (show 63 ≤ i by omega))
    omega

/-! ### Concrete cases -/

/-- Hits of an L-shaped cluster and of another one far away. -/
def table : List Hit := [⟨10, 20, 3⟩, ⟨11, 20, 2⟩, ⟨300, 5, 0⟩, ⟨10, 21, 4⟩, ⟨17, 27, 0⟩]

example : Denotes table [1, 0, 3, -1, -1] [⟨11, 20, 2⟩, ⟨10, 20, 3⟩, ⟨10, 21, 4⟩] ∧
    Fits [⟨11, 20, 2⟩, ⟨10, 20, 3⟩, ⟨10, 21, 4⟩] ∧
    endOfCluster table [1, 0, 3, -1, -1] = some ⟨7, 1, 1, 2⟩ := by
  refine ⟨⟨[1, 0, 3], [-1, -1], rfl, by decide, by decide⟩, ⟨10, 20, ?_⟩, by decide +kernel⟩
  unfold IsSmallest
  decide

/-- The corner of the 8 x 8 area, and an area that is too large. -/
example : endOfCluster table [0, 1, 3, 4] = some ⟨-1, 7, 7, 0⟩ ∧ endOfCluster table [0, 2] = some ⟨-1, 290, 15, 0⟩ ∧
    endOfCluster table [4] = some ⟨1, 0, 0, 0⟩ := by decide +kernel

end BTA.Cluster.Props
