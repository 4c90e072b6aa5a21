import Verif.Model.Laws

/-!
# Marin coefficients of the constitutive laws

`__marin__(strain)` and `__marin_tangent__(strain)` with `strain = [e0, e1]`, i.e. the strain
profile `eps(y) = e0 + e1*y`.  They return strain ranges (or `None`) and polynomial coefficients.
When `e1 == 0` several laws assign `strain[0] = preprocess(...)` into the caller's list; the
model returns the new value of `strain[0]` as second component.
-/

set_option autoImplicit false

namespace SC

noncomputable section

open Classical

/-- The returned pair `(strains, coeff)`; `none` models Python's `None`. -/
structure MarinOut where
  ranges : Option (List (ℝ × ℝ))
  coeffs : List (List ℝ)

namespace Elastic
/-- constitutive_laws/_elastic.py:66-84 -/
def marin (l : Elastic) (e0 e1 : ℝ) : MarinOut × ℝ := (⟨none, [[l.E * e0, l.E * e1]]⟩, e0)
/-- constitutive_laws/_elastic.py:86-103 -/
def marinT (l : Elastic) (e0 _e1 : ℝ) : MarinOut × ℝ := (⟨none, [[l.E]]⟩, e0)
end Elastic

namespace ElasticPlastic
/-- constitutive_laws/_elasticplastic.py:102-161 -/
def marin (l : ElasticPlastic) (e0 e1 : ℝ) : MarinOut × ℝ :=
  let sy := l.ult true
  let su := l.ult false
  if e1 = 0 then
    let e0 := snap su e0
    if e0 > sy.2 ∧ e0 ≤ su.2 then
      (⟨none, [[l.Eh * e0 + l.fy * (1 - l.Eh / l.E), l.Eh * e1]]⟩, e0)
    else if e0 < sy.1 ∧ e0 ≥ su.1 then
      (⟨none, [[l.Eh * e0 - l.fy * (1 - l.Eh / l.E), l.Eh * e1]]⟩, e0)
    else if |e0| ≤ l.eps_sy then
      (⟨none, [[l.E * e0, l.E * e1]]⟩, e0)
    else (⟨none, [[0]]⟩, e0)
  else
    (⟨some [(su.1, sy.1), (sy.1, sy.2), (sy.2, su.2)],
      [[l.Eh * e0 - l.fy * (1 - l.Eh / l.E), l.Eh * e1],
       [l.E * e0, l.E * e1],
       [l.Eh * e0 + l.fy * (1 - l.Eh / l.E), l.Eh * e1]]⟩, e0)

/-- constitutive_laws/_elasticplastic.py:163-216 -/
def marinT (l : ElasticPlastic) (e0 e1 : ℝ) : MarinOut × ℝ :=
  let sy := l.ult true
  let su := l.ult false
  if e1 = 0 then
    let e0 := snap su e0
    if e0 > sy.2 ∧ e0 ≤ su.2 then (⟨none, [[l.Eh]]⟩, e0)
    else if e0 < sy.1 ∧ e0 ≥ su.1 then (⟨none, [[l.Eh]]⟩, e0)
    else if |e0| ≤ l.eps_sy then (⟨none, [[l.E]]⟩, e0)
    else (⟨none, [[0]]⟩, e0)
  else
    (⟨some [(su.1, sy.1), (sy.1, sy.2), (sy.2, su.2)], [[l.Eh], [l.E], [l.Eh]]⟩, e0)
end ElasticPlastic

namespace ParabolaRectangle
/-- constitutive_laws/_parabolarectangle.py:131-190 (`n == 2`; for other exponents line 126-129
delegates to the UserDefined law returned by `_discretize_law`, core/base.py:221-266). -/
def marin (l : ParabolaRectangle) (e0 e1 : ℝ) : MarinOut × ℝ :=
  if e1 = 0 then
    let e0 := snap (l.ult false) e0
    if e0 > 0 then (⟨none, [[0]]⟩, e0)
    else if e0 > l.eps_0 then
      (⟨none, [[2 * l.fc * e0 / l.eps_0 * (1 - 0.5 * (e0 / l.eps_0)),
        2 * l.fc / l.eps_0 * e1 * (1 - e0 / l.eps_0), 0]]⟩, e0)
    else if e0 ≥ l.eps_u then (⟨none, [[l.fc]]⟩, e0)
    else (⟨none, [[0]]⟩, e0)
  else
    (⟨some [(l.eps_0, 0), (l.eps_u, l.eps_0)],
      [[2 * l.fc * e0 / l.eps_0 * (1 - 0.5 * (e0 / l.eps_0)),
        2 * l.fc / l.eps_0 * e1 * (1 - e0 / l.eps_0),
        -l.fc * e1 ^ 2 / l.eps_0 ^ 2],
       [l.fc]]⟩, e0)

/-- constitutive_laws/_parabolarectangle.py:211-247 (`n == 2`). -/
def marinT (l : ParabolaRectangle) (e0 e1 : ℝ) : MarinOut × ℝ :=
  if e1 = 0 then
    let e0 := snap (l.ult false) e0
    if e0 > 0 then (⟨none, [[0]]⟩, e0)
    else if e0 > l.eps_0 then
      (⟨none, [[2 * l.fc / l.eps_0 * (1 - e0 / l.eps_0), -2 * l.fc / l.eps_0 ^ 2 * e1]]⟩, e0)
    else (⟨none, [[0]]⟩, e0)
  else
    (⟨some [(l.eps_0, 0), (l.eps_u, l.eps_0)],
      [[2 * l.fc / l.eps_0 * (1 - e0 / l.eps_0), -2 * l.fc / l.eps_0 ^ 2 * e1], [0]]⟩, e0)
end ParabolaRectangle

namespace Bilinear
/-- constitutive_laws/_bilinearcompression.py:83-131 -/
def marin (l : Bilinear) (e0 e1 : ℝ) : MarinOut × ℝ :=
  if e1 = 0 then
    let e0 := snap (l.ult false) e0
    if e0 > 0 then (⟨none, [[0]]⟩, e0)
    else if e0 > l.eps_c then (⟨none, [[l.E * e0, l.E * e1]]⟩, e0)
    else if e0 ≥ l.eps_cu then (⟨none, [[l.fc]]⟩, e0)
    else (⟨none, [[0]]⟩, e0)
  else
    (⟨some [(l.eps_c, 0), (l.eps_cu, l.eps_c)], [[l.E * e0, l.E * e1], [l.fc]]⟩, e0)

/-- constitutive_laws/_bilinearcompression.py:133-176 -/
def marinT (l : Bilinear) (e0 e1 : ℝ) : MarinOut × ℝ :=
  if e1 = 0 then
    let e0 := snap (l.ult false) e0
    if e0 > 0 then (⟨none, [[0]]⟩, e0)
    else if e0 > l.eps_c then (⟨none, [[l.E]]⟩, e0)
    else (⟨none, [[0]]⟩, e0)
  else
    (⟨some [(l.eps_c, 0), (l.eps_cu, l.eps_c)], [[l.E], [0]]⟩, e0)
end Bilinear

namespace InitialStrain
/-- constitutive_laws/_initial_strain.py:86-102 `__marin__`, for the `__marin__` of the wrapped law
(a fresh list is passed, so the caller's `strain[0]` is not touched). -/
def marin (l : InitialStrain) (wrapped : ℝ → ℝ → MarinOut × ℝ) (e0 e1 : ℝ) : MarinOut × ℝ :=
  ((wrapped (e0 + l.eps0) e1).1, e0)
/-- constitutive_laws/_initial_strain.py:104-120 `__marin_tangent__`. -/
def marinT (l : InitialStrain) (wrappedT : ℝ → ℝ → MarinOut × ℝ) (e0 e1 : ℝ) : MarinOut × ℝ :=
  ((wrappedT (e0 + l.eps0) e1).1, e0)
end InitialStrain

end

end SC
