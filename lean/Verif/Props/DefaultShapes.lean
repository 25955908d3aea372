import Verif.Props.ClusterShape
import Verif.Spec.DefaultShapes
import Verif.Model.AlignDriver
/-
C124: cluster shapes used for the alignment.
-/
namespace BTA.Cluster.Props
open BTA.Cluster BTA.Cluster.Spec

theorem bit_small {x y : Nat} (hx : x < 8) (hy : y < 8) (h : bit x y < 4) : x < 2 ∧ y < 2 := by
  unfold bit at h
  omega

theorem bit_surjective : ∀ k < 64, ∃ x < 8, ∃ y < 8, bit x y = k := by decide +kernel

/-- Cells of the bits 0 to 3. -/
theorem bit_values : bit 0 0 = 0 ∧ bit 1 0 = 1 ∧ bit 0 1 = 2 ∧ bit 1 1 = 3 := by decide

theorem exists_smallest (f : Hit → Nat) : ∀ (cl : List Hit), cl ≠ [] → ∃ v, IsSmallest f cl v
  | [], h => absurd rfl h
  | [h], _ => ⟨f h, ⟨h, by simp, rfl⟩, by simp⟩
  | h :: h' :: r, _ => by
    obtain ⟨v, ⟨k, hk, hv⟩, hmin⟩ := exists_smallest f (h' :: r) (by simp)
    by_cases hle : f h ≤ v
    · exact ⟨f h, ⟨h, by simp, rfl⟩, fun x hx => by
        rcases List.mem_cons.mp hx with rfl | hx
        · exact le_rfl
        · exact hle.trans (hmin x hx)⟩
    · exact ⟨v, ⟨k, List.mem_cons_of_mem _ hk, hv⟩, fun x hx => by
        rcases List.mem_cons.mp hx with rfl | hx
        · omega
        · exact hmin x hx⟩

theorem smallest_unique (f : Hit → Nat) (cl : List Hit) (v w : Nat) (hv : IsSmallest f cl v) (hw : IsSmallest f cl w) : v = w := by
  obtain ⟨⟨a, ha, rfl⟩, h1⟩ := hv
  obtain ⟨⟨b, hb, rfl⟩, h2⟩ := hw
  exact le_antisymm (h1 b hb) (h2 a ha)

/-- C124: without a selection by the user, exactly the clusters are used for the alignment that fit into a square of 2 x 2 pixels and are
connected by edges: one pixel, two neighbours, three pixels and four pixels, but not two pixels that only have a corner in common. -/
theorem C124_default_shapes (hits : List Hit) (indices : List Int) (cl : List Hit) (hd : Denotes hits indices cl) (hne : cl ≠ []) :
    ∃ r, endOfCluster hits indices = some r ∧
      ((∃ s ∈ Align.defaultShapes, r.shape = (s : Int)) ↔ InSquare cl ∧ EdgeConnected cl) := by
  obtain ⟨r, hr, hfit, hbits⟩ := C47_shape hits indices cl hd hne
  refine ⟨r, hr, ?_⟩
  obtain ⟨c0, hc0⟩ := exists_smallest Hit.column cl hne
  obtain ⟨r0, hr0⟩ := exists_smallest Hit.row cl hne
  constructor
  · rintro ⟨s, hs, hrs⟩
    have hf : Fits cl := by
      by_contra hn
      have := hfit.mpr hn
      omega
    obtain ⟨-, -, hb⟩ := hbits hf
    have hb := hb c0 r0 hc0 hr0
    rw [hrs, Int.toNat_natCast] at hb
    have hs16 : s < 16 := by
      simp only [Align.defaultShapes, List.mem_cons, List.not_mem_nil, or_false] at hs
      omega
    -- every hit is in one of the four cells
    have hcell : ∀ h ∈ cl, ∃ x < 2, ∃ y < 2, h.column = c0 + x ∧ h.row = r0 + y ∧ s.testBit (bit x y) = true := by
      intro h hh
      obtain ⟨c0', r0', hc, hr', hlt, -⟩ := hf
      have e1 : c0' = c0 := smallest_unique Hit.column cl _ _ hc hc0
      have e2 : r0' = r0 := smallest_unique Hit.row cl _ _ hr' hr0
      subst e1 e2
      obtain ⟨l1, l2⟩ := hlt h hh
      have g1 := hc.2 h hh
      have g2 := hr'.2 h hh
      have hx : h.column - c0' < 8 := by omega
      have hy : h.row - r0' < 8 := by omega
      have ht := (hb _ hx _ hy).mpr ⟨h, hh, by omega, by omega⟩
      have hlt4 : bit (h.column - c0') (h.row - r0') < 4 := by
        by_contra hge
        have : s < 2 ^ bit (h.column - c0') (h.row - r0') :=
          lt_of_lt_of_le hs16 (by calc 16 = 2 ^ 4 := by norm_num
            _ ≤ _ := Nat.pow_le_pow_right (by norm_num) (by omega))
        rw [Nat.testBit_lt_two_pow this] at ht
        cases ht
      obtain ⟨x2, y2⟩ := bit_small hx hy hlt4
      exact ⟨_, x2, _, y2, by omega, by omega, ht⟩
    have hsq : InSquare cl := by
      intro h hh h' hh'
      obtain ⟨x, hx, y, hy, e1, e2, -⟩ := hcell h hh
      obtain ⟨x', hx', y', hy', e1', e2', -⟩ := hcell h' hh'
      omega
    refine ⟨hsq, fun h hh h' hh' => ?_⟩
    obtain ⟨x, hx, y, hy, e1, e2, b⟩ := hcell h hh
    obtain ⟨x', hx', y', hy', e1', e2', b'⟩ := hcell h' hh'
    by_cases hdiag : x ≠ x' ∧ y ≠ y'
    · -- a third pixel
      have third : s.testBit (bit x y') = true ∨ s.testBit (bit x' y) = true := by
        have hxx : (x = 0 ∧ x' = 1) ∨ (x = 1 ∧ x' = 0) := by omega
        have hyy : (y = 0 ∧ y' = 1) ∨ (y = 1 ∧ y' = 0) := by omega
        obtain ⟨v1, v2, v3, v4⟩ := bit_values
        simp only [Align.defaultShapes, List.mem_cons, List.not_mem_nil, or_false] at hs
        rcases hxx with ⟨rfl, rfl⟩ | ⟨rfl, rfl⟩ <;> rcases hyy with ⟨rfl, rfl⟩ | ⟨rfl, rfl⟩ <;>
          simp only [v1, v2, v3, v4] at b b' ⊢ <;>
          rcases hs with rfl | rfl | rfl | rfl | rfl | rfl | rfl | rfl <;> revert b b' <;> decide
      have path : ∀ k ∈ cl, Touch h k → Touch k h' → Relation.ReflTransGen (fun a b => b ∈ cl ∧ Touch a b) h h' :=
        fun k hk t1 t2 => (Relation.ReflTransGen.single ⟨hk, t1⟩).tail ⟨hh', t2⟩
      rcases third with t | t
      · obtain ⟨k, hk, k1, k2⟩ := (hb x (by omega) y' (by omega)).mp t
        exact path k hk (.inl ⟨by omega, by omega, by omega⟩) (.inr ⟨by omega, by omega, by omega⟩)
      · obtain ⟨k, hk, k1, k2⟩ := (hb x' (by omega) y (by omega)).mp t
        exact path k hk (.inr ⟨by omega, by omega, by omega⟩) (.inl ⟨by omega, by omega, by omega⟩)
    · refine Relation.ReflTransGen.single ⟨hh', ?_⟩
      unfold Touch
      omega
  · rintro ⟨hsq, hcon⟩
    obtain ⟨hm, hhm, hmc⟩ := hc0.1
    obtain ⟨hn, hhn, hnr⟩ := hr0.1
    have hcell : ∀ h ∈ cl, ∃ x < 2, ∃ y < 2, h.column = c0 + x ∧ h.row = r0 + y := by
      intro h hh
      have g1 := hc0.2 h hh
      have g2 := hr0.2 h hh
      have g3 := (hsq h hh hm hhm).1
      have g4 := (hsq h hh hn hhn).2
      exact ⟨h.column - c0, by omega, h.row - r0, by omega, by omega, by omega⟩
    have hf : Fits cl := by
      refine ⟨c0, r0, hc0, hr0, fun h hh => ?_, ?_⟩
      · obtain ⟨x, hx, y, hy, e1, e2⟩ := hcell h hh
        omega
      · rintro ⟨h, hh, e1, e2⟩
        obtain ⟨x, hx, y, hy, e3, e4⟩ := hcell h hh
        omega
    obtain ⟨hpos, hlt, hb⟩ := hbits hf
    have hb := hb c0 r0 hc0 hr0
    obtain ⟨s, hs⟩ : ∃ s : Nat, r.shape = (s : Int) := ⟨r.shape.toNat, by omega⟩
    rw [hs, Int.toNat_natCast] at hb
    refine ⟨s, ?_, hs⟩
    have hs16 : s < 2 ^ 4 := by
      refine Nat.lt_pow_two_of_testBit s fun k hk => ?_
      by_cases hk64 : k < 64
      · obtain ⟨x, hx, y, hy, rfl⟩ := bit_surjective k hk64
        rw [Bool.eq_false_iff]
        intro ht
        obtain ⟨h, hh, e1, e2⟩ := (hb x hx y hy).mp ht
        obtain ⟨x', hx', y', hy', e3, e4⟩ := hcell h hh
        have ex : x = x' := by omega
        have ey : y = y' := by omega
        subst ex ey
        unfold bit at hk
        omega
      · refine Nat.testBit_lt_two_pow (lt_of_lt_of_le (show s < 2 ^ 63 by rw [hs] at hlt; exact_mod_cast hlt) ?_)
        exact Nat.pow_le_pow_right (by norm_num) (by omega)
    obtain ⟨v1, v2, v3, v4⟩ := bit_values
    -- first column and first row are not empty
    have hcol : s.testBit 0 = true ∨ s.testBit 2 = true := by
      obtain ⟨x, hx, y, hy, e1, e2⟩ := hcell hm hhm
      have hy' : y = 0 ∨ y = 1 := by omega
      rcases hy' with rfl | rfl
      · exact .inl (by rw [← v1]; exact (hb 0 (by omega) 0 (by omega)).mpr ⟨hm, hhm, by omega, by omega⟩)
      · exact .inr (by rw [← v3]; exact (hb 0 (by omega) 1 (by omega)).mpr ⟨hm, hhm, by omega, by omega⟩)
    have hrow : s.testBit 0 = true ∨ s.testBit 1 = true := by
      obtain ⟨x, hx, y, hy, e1, e2⟩ := hcell hn hhn
      have hx' : x = 0 ∨ x = 1 := by omega
      rcases hx' with rfl | rfl
      · exact .inl (by rw [← v1]; exact (hb 0 (by omega) 0 (by omega)).mpr ⟨hn, hhn, by omega, by omega⟩)
      · exact .inr (by rw [← v2]; exact (hb 1 (by omega) 0 (by omega)).mpr ⟨hn, hhn, by omega, by omega⟩)
    -- not only a diagonal
    have stay : ∀ (x y x' y' : Nat), x < 2 → y < 2 → x' < 2 → y' < 2 → x ≠ x' → y ≠ y' → s.testBit (bit x y) = true → s.testBit (bit x' y') = true →
        s.testBit (bit x y') = false → s.testBit (bit x' y) = false → False := by
      intro x y x' y' hx hy hx' hy' hxx hyy b b' n n'
      obtain ⟨h, hh, e1, e2⟩ := (hb x (by omega) y (by omega)).mp b
      obtain ⟨h', hh', e1', e2'⟩ := (hb x' (by omega) y' (by omega)).mp b'
      have inv : ∀ k, Relation.ReflTransGen (fun a b => b ∈ cl ∧ Touch a b) h k → k.column = c0 + x ∧ k.row = r0 + y := by
        intro k hk
        induction hk with
        | refl => exact ⟨e1, e2⟩
        | tail _ hstep ih =>
          rename_i k k' _
          obtain ⟨hk', ht⟩ := hstep
          obtain ⟨u, hu, v, hv, f1, f2⟩ := hcell k' hk'
          have hbit := (hb u (by omega) v (by omega)).mpr ⟨k', hk', f1, f2⟩
          by_cases hux : u = x
          · by_cases hvy : v = y
            · subst hux hvy
              exact ⟨f1, f2⟩
            · have : v = y' := by omega
              subst hux this
              rw [n] at hbit
              cases hbit
          · have hux' : u = x' := by omega
            by_cases hvy : v = y
            · subst hux' hvy
              rw [n'] at hbit
              cases hbit
            · unfold Touch at ht
              omega
      have := inv h' (hcon h hh h' hh')
      omega
    have d1 := stay 0 0 1 1 (by omega) (by omega) (by omega) (by omega) (by omega) (by omega)
    have d2 := stay 1 0 0 1 (by omega) (by omega) (by omega) (by omega) (by omega) (by omega)
    rw [v1, v2, v3, v4] at d1 d2
    clear hb hcell hs hlt hpos stay
    have hs16' : s < 16 := by simpa using hs16
    revert hcol hrow d1 d2
    interval_cases s <;> simp [Align.defaultShapes, Nat.testBit]

/-- Three pixels in an L are used, two pixels that have only a corner in common are not. -/
def corner : List Hit := [⟨10, 20, 3⟩, ⟨11, 20, 2⟩, ⟨10, 21, 4⟩, ⟨11, 21, 0⟩]

example : endOfCluster corner [0, 1, 2] = some ⟨7, 1, 1, 2⟩ ∧ 7 ∈ Align.defaultShapes ∧
    endOfCluster corner [1, 2] = some ⟨6, 1, 1, 2⟩ ∧ 6 ∉ Align.defaultShapes ∧
    endOfCluster corner [0, 3] = some ⟨9, 1, 1, 0⟩ ∧ 9 ∉ Align.defaultShapes := by decide +kernel

example : ¬EdgeConnected [⟨11, 20, 2⟩, ⟨10, 21, 4⟩] := by
  intro h
  have := h ⟨11, 20, 2⟩ (by simp) ⟨10, 21, 4⟩ (by simp)
  have key : ∀ k, Relation.ReflTransGen (fun a b => b ∈ [(⟨11, 20, 2⟩ : Hit), ⟨10, 21, 4⟩] ∧ Touch a b) ⟨11, 20, 2⟩ k → k = ⟨11, 20, 2⟩ := by
    intro k hk
    induction hk with
    | refl => rfl
    | tail _ hstep ih =>
      subst ih
      obtain ⟨hm, ht⟩ := hstep
      simp only [List.mem_cons, List.not_mem_nil, or_false] at hm
      rcases hm with rfl | rfl
      · rfl
      · simp [Touch] at ht
  simpa using key _ this

end BTA.Cluster.Props
