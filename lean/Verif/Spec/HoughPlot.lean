import Verif.Model.HoughPlot
import Verif.Spec.Prealign
/-
Specification: where a pixel of an image is drawn.
-/
namespace BTA.Prealign.Spec
open BTA.Prealign

/-- Centre of a pixel on the horizontal axis. -/
noncomputable def centreX (p : Picture) (c : Nat) : ℝ := p.left + ((c : ℝ) + 1 / 2) * ((p.right - p.left) / p.width)

/-- Centre of a pixel on the vertical axis. -/
noncomputable def centreY (p : Picture) (r : Nat) : ℝ := p.bottom + ((r : ℝ) + 1 / 2) * ((p.top - p.bottom) / p.height)

/-- The bins of the reference cover its range. -/
def RefRegular (nd : Node) : Prop := nd.refExtent.2 - nd.refExtent.1 = nd.refBins * nd.resolution

/-- An image with `n` set pixels on the diagonal: the correlation of two aligned planes. -/
def diagonal (n : Nat) : Image := ⟨n, n, fun y x => y == x⟩

end BTA.Prealign.Spec
