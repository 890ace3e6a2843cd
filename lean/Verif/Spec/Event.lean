import Verif.Model.Event
import Verif.Model.RealArith
import Mathlib.Analysis.Complex.Norm

/-! # Specification vocabulary for events: the formulas of the documentation, in exact reals -/

namespace Trento.Spec
open Trento

/-- Generalized mean of order `p` of two non-negative numbers: `((a^p + b^p)/2)^(1/p)`, the geometric mean for
`p = 0`, and zero for `p < 0` when one argument vanishes. -/
noncomputable def powerMean (p a b : ℝ) : ℝ :=
  if p = 0 then Real.sqrt (a * b)
  else if p < 0 ∧ (a = 0 ∨ b = 0) then 0
  else ((a ^ p + b ^ p) / 2) ^ (1 / p)

/-- Sum over all grid cells. -/
noncomputable def gridSum {n : ℕ} (f : Fin n → Fin n → ℝ) : ℝ := ∑ iy, ∑ ix, f iy ix

/-- x coordinate (second index) of the thickness-weighted centre of mass, in units of cells. -/
noncomputable def comX {n : ℕ} (T : Fin n → Fin n → ℝ) : ℝ := gridSum (fun iy ix => T iy ix * ix.val) / gridSum T
/-- y coordinate (first index) of the centre of mass. -/
noncomputable def comY {n : ℕ} (T : Fin n → Fin n → ℝ) : ℝ := gridSum (fun iy ix => T iy ix * iy.val) / gridSum T

/-- Position of a cell relative to `(cx, cy)` as a complex number, in units of cells. -/
noncomputable def cellZ {n : ℕ} (cx cy : ℝ) (iy ix : Fin n) : ℂ := ⟨(ix.val : ℝ) - cx, (iy.val : ℝ) - cy⟩

/-- Eccentricity harmonic `k` about the point `(cx, cy)`: `|Σ t z^k| / max(Σ t |z|^k, 1e-12)`, sums over the cells with
`t ≥ 1e-12`. -/
noncomputable def eccentricityAbout {n : ℕ} (cx cy : ℝ) (T : Fin n → Fin n → ℝ) (k : ℕ) : ℝ :=
  ‖∑ iy, ∑ ix, if T iy ix < 1e-12 then 0 else (T iy ix : ℂ) * (cellZ cx cy iy ix)^k‖ /
    max (∑ iy, ∑ ix, if T iy ix < 1e-12 then 0 else T iy ix * ‖cellZ cx cy iy ix‖^k) 1e-12

/-- Eccentricity harmonic `k` of a grid, about its centre of mass. -/
noncomputable def eccentricity {n : ℕ} (T : Fin n → Fin n → ℝ) (k : ℕ) : ℝ :=
  eccentricityAbout (comX T) (comY T) T k

end Trento.Spec
