import Verif.Model.Nucleon
import Verif.Model.RealArith

/-!
# Specification vocabulary for nucleons

The physics formulas of the documentation, in exact real arithmetic and independent of the model's
helper functions.
-/

namespace Trento.Spec
open Trento

/-- squared transverse distance of a constituent from a point -/
def distSq (c : Constituent ℝ) (x y : ℝ) : ℝ := (x - c.x)^2 + (y - c.y)^2

/-- Ideal thickness of a nucleon with constituent width `v` and `m` constituents: sum of Gaussians of width
`v`, each cut off at `5 v`, each weighted with its fluctuation, normalised by `1/(2 π v² m)`. -/
noncomputable def idealThickness (v : ℝ) (m : ℕ) (cs : List (Constituent ℝ)) (x y : ℝ) : ℝ :=
  1 / (2 * Real.pi * v^2 * m) *
    (cs.map fun c => if distSq c x y < (5 * v)^2 then c.fluctuation * Real.exp (-distSq c x y / (2 * v^2))
                     else 0).sum

/-- Overlap `T_AB` of two nucleons: average over constituent pairs of a Gaussian of variance `2 v²`. -/
noncomputable def overlapTAB (v : ℝ) (m : ℕ) (as bs : List (Constituent ℝ)) : ℝ :=
  1 / (m:ℝ)^2 *
    (as.map fun a => (bs.map fun b =>
      Real.exp (-((a.x - b.x)^2 + (a.y - b.y)^2) / (4 * v^2)) / (4 * Real.pi * v^2)).sum).sum

end Trento.Spec
