import Verif.Spec.Simulate
/-
Specification of the content of simulated data (C138, C140-C142, C166-C168).
-/
namespace BTA.Sim.Spec
open BTA.Sim BTA.Geo

/-- Change of the direction of a track by scattering with the angle `theta` to the direction `phi` around the z axis. -/
noncomputable def kick (phi theta : ℝ) : Vec3 := ![Real.cos phi * Real.sin theta, Real.sin phi * Real.sin theta, 0]

/-- Two vectors have the same direction. -/
def SameDirection (a b : Vec3) : Prop := ∃ c : ℝ, 0 < c ∧ a = c • b

/-- The formula of Highland for the scattering angle, for a particle with charge 1 and speed 1 and the momentum in MeV. -/
noncomputable def highland (momentum material : ℝ) : ℝ := 13.6 / momentum * Real.sqrt material * (1 + 0.038 * Real.log material)

/-- The hits of one track on DUTs with these material budgets: each hit is on the straight line from the hit before in the actual direction; the
direction changes at DUTs with material, by the angle `highland * v` in the direction `2 pi u`. (If the x component of the new direction is exactly
zero, nothing is said about it.) -/
def Path (momentum : ℝ) (u v : Nat → ℝ) : Nat → List ℝ → Vec3 → Vec3 → List Vec3 → Prop
  | _, [], _, _, hits => hits = []
  | i, m :: ms, origin, d, hits => ∃ q rest d', hits = q :: rest ∧ BTA.Spec.OnLine origin d q ∧ (m = 0 → d' = d) ∧
      (m ≠ 0 → (d + kick (2 * Real.pi * u i) |highland momentum m * v i|) 0 ≠ 0 →
        SameDirection d' (d + kick (2 * Real.pi * u i) |highland momentum m * v i|)) ∧
      Path momentum u v (i + 1) ms q d' rest

end BTA.Sim.Spec
