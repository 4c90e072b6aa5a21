import Mathlib.Analysis.SpecialFunctions.Pow.Real

/-! # Specification vocabulary: design diagrams

Used by C84, C85 and C86.  Nothing here refers to the modelled code. -/

set_option autoImplicit false

namespace SC.Spec

/-- Parabola-rectangle diagram of concrete with strength `fc`, strain `e0` at reaching the strength and exponent `n` (EC2 3.1.7 (1);
compression negative; the ultimate strain is not part of it). -/
noncomputable def parabolaRectangle (fc e0 n e : ℝ) : ℝ := -fc * (1 - (1 - min (max (-e) 0) e0 / e0) ^ n)

/-- Bilinear diagram of concrete with strength `fc` and strain `e0` at reaching it (EC2 3.1.7 (2)). -/
noncomputable def bilinearDiagram (fc e0 e : ℝ) : ℝ := -fc * (min (max (-e) 0) e0 / e0)

/-- Strain at reaching the strength in the bilinear diagram (EC2 table 3.1). -/
noncomputable def yieldStrain (fck : ℝ) : ℝ := if fck ≤ 50 then 0.00175 else (1.75 + 0.55 * (fck - 50) / 40) / 1000

/-- Ultimate strain in the bilinear diagram (EC2 table 3.1). -/
noncomputable def ultimateStrain (fck : ℝ) : ℝ := if fck ≤ 50 then 0.0035 else (2.6 + 35 * ((90 - fck) / 100) ^ 4) / 1000

/-- Sargin's diagram with strength `fc` at the strain `e1` and plasticity number `k` (EC2 3.1.5, MC2010 5.1-26). -/
noncomputable def sarginDiagram (fc e1 k e : ℝ) : ℝ :=
  -fc * ((k * (max (-e) 0 / e1) - (max (-e) 0 / e1) ^ 2) / (1 + (k - 2) * (max (-e) 0 / e1)))

/-- Popovics' diagram with strength `fc` at the strain `e1` and exponent `n`. -/
noncomputable def popovicsDiagram (fc e1 n e : ℝ) : ℝ := -fc * (max (-e) 0 / e1 * n / (n - 1 + (max (-e) 0 / e1) ^ n))

/-- Strain at the mean strength `f` in Sargin's diagram (EC2 table 3.1). -/
noncomputable def peakStrain (f : ℝ) : ℝ := min (0.7 * f ^ (0.31 : ℝ)) 2.8 / 1000

/-- Ultimate strain in Sargin's diagram (EC2 table 3.1; the mean strength is `fck + 8`). -/
noncomputable def fractureStrain (fck : ℝ) : ℝ := if fck < 50 then 0.0035 else (2.8 + 27 * ((90 - fck) / 100) ^ 4) / 1000

/-- Plasticity number of Sargin's diagram (EC2 3.1.5, with the secant modulus of table 3.1). -/
noncomputable def plasticity (f : ℝ) : ℝ := 1.05 * (22000 * (f / 10) ^ (0.3 : ℝ)) * peakStrain f / f

/-- Strain at reaching the strength for concrete above C50 (EC2 table 3.1). -/
noncomputable def plateauStrain (fck : ℝ) : ℝ := (2 + 0.085 * (fck - 50) ^ (0.53 : ℝ)) / 1000

/-- Ultimate strain for concrete above C50 (EC2 table 3.1). -/
noncomputable def crushingStrain (fck : ℝ) : ℝ := (2.6 + 35 * ((90 - fck) / 100) ^ 4) / 1000

/-- Exponent for concrete above C50 (EC2 table 3.1). -/
noncomputable def parabolaExponent (fck : ℝ) : ℝ := 1.4 + 23.4 * ((90 - fck) / 100) ^ 4

/-- `v` is the ordinate at `x` of the broken line through the points of the table. -/
def OnTable (t : List (ℝ × ℝ)) (x v : ℝ) : Prop :=
  ∃ i a b c d, t[i]? = some (a, b) ∧ t[i + 1]? = some (c, d) ∧ a ≤ x ∧ x ≤ c ∧ v = b + (d - b) * ((x - a) / (c - a))

/-- Strain (per mille) at the mean strength in Sargin's diagram, by the strength class (MC2010 table 5.1-8). -/
def peakTable : List (ℝ × ℝ) := [(12, 1.9), (16, 2.0), (20, 2.1), (25, 2.2), (30, 2.3), (35, 2.3), (40, 2.4), (45, 2.5), (50, 2.6),
  (55, 2.6), (60, 2.7), (70, 2.7), (80, 2.8), (90, 2.9), (100, 3.0), (110, 3.0), (120, 3.0)]

/-- Ultimate strain (per mille) in Sargin's diagram (MC2010 table 5.1-8). -/
def limitTable : List (ℝ × ℝ) := [(12, 3.5), (16, 3.5), (20, 3.5), (25, 3.5), (30, 3.5), (35, 3.5), (40, 3.5), (45, 3.5), (50, 3.4),
  (55, 3.4), (60, 3.3), (70, 3.2), (80, 3.1), (90, 3.0), (100, 3.0), (110, 3.0), (120, 3.0)]

/-- Plasticity number of Sargin's diagram (MC2010 table 5.1-8). -/
def plasticityTable : List (ℝ × ℝ) := [(12, 2.44), (16, 2.36), (20, 2.28), (25, 2.15), (30, 2.04), (35, 1.92), (40, 1.82), (45, 1.74),
  (50, 1.66), (55, 1.61), (60, 1.55), (70, 1.47), (80, 1.41), (90, 1.36), (100, 1.32), (110, 1.24), (120, 1.18)]

/-- Strain at the mean strength `f` in Sargin's diagram (EC2 2023, table 5.1). -/
noncomputable def peakStrain2023 (f : ℝ) : ℝ := min (0.7 * f ^ ((1 : ℝ) / 3)) 2.8 / 1000

/-- Ultimate strain in Sargin's diagram (EC2 2023, table 5.1), for the mean strength `f`. -/
noncomputable def fractureStrain2023 (f : ℝ) : ℝ := min (2.8 + 14 * (1 - f / 108) ^ 4) 3.5 / 1000

/-- Plasticity number of Sargin's diagram (EC2 2023, 5.1.6), for the mean strength `f` and aggregate factor `kE`. -/
noncomputable def plasticity2023 (kE f : ℝ) : ℝ := 1.05 * (kE * f ^ ((1 : ℝ) / 3)) * peakStrain2023 f / f

end SC.Spec
