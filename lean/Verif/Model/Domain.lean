import Verif.Model.Calculator
import Mathlib.Analysis.SpecialFunctions.Pow.Real

/-! # Strain profiles of the interaction domains -/

set_option autoImplicit false

namespace SC

noncomputable section

/-- The `type_i` argument after `.lower()`. -/
inductive Spacing
  | linear | geometric | quadratic | other
  deriving DecidableEq

/-- `np.geomspace(a, b, n, endpoint)` for `a`, `b` of the same sign (numpy gives nan for opposite
signs; that case is not modelled and excluded where the function is used). -/
def geomspace (a b : ℝ) (n : ℕ) (endpoint : Bool) : List ℝ :=
  (List.range n).map fun i : ℕ =>
    a * (b / a) ^ ((i : ℝ) / (if endpoint then (n : ℝ) - 1 else n))

/-- `np.sign`. -/
def npSign (x : ℝ) : ℝ := if 0 < x then 1 else if x < 0 then -1 else 0

/-- `np.geomspace` with its argument checks (all `ValueError`): zero limits, negative count. -/
def geomspace? (a b : ℝ) (n : ℤ) (endpoint : Bool) : Except PyErr (List ℝ) :=
  if a = 0 ∨ b = 0 ∨ n < 0 then .error .valueError else .ok (geomspace a b n.toNat endpoint)

/-- sections/_generic.py:1193-1217 `_np_space`. -/
def npSpace (a b : ℝ) (n : ℤ) (ty : Spacing) (endpoint : Bool) : Except PyErr (List ℝ) :=
  if n < 0 then .error .valueError
  else match ty with
    | .linear => .ok (linspace a b n.toNat endpoint)
    | .geometric =>
      if b ≠ 0 ∧ a ≠ 0 then geomspace? a b n endpoint
      else if b = 0 then
        match geomspace? a (1e-10 * npSign a) (n - 1) endpoint with
        | .error e => .error e
        | .ok l => .ok (l ++ [0])
      else
        match geomspace? (1e-10 * npSign b) b (n - 1) endpoint with
        | .error e => .error e
        | .ok l => .ok (0 :: l)
    | .quadratic => .ok ((linspace 0 1 n.toNat true).map fun t => t ^ 2 * (a - b) + b).reverse
    | .other => .error .valueError

/-- Strains and ordinates that define the fields (1179-1191): governing ordinates of the balanced
failure, its strains there, the strains of the yield failure, lowest ordinate of the section. -/
structure FieldData where
  y_n : ℝ
  y_p : ℝ
  eps_p_b : ℝ
  eps_n_b : ℝ
  eps_p_y : ℝ
  eps_n_y : ℝ
  min_y : ℝ

/-- sections/_generic.py:1176-1191: `bal` is `get_balanced_failure_strain` on the rotated geometry,
`minY` the third value of its `calculate_extents`. -/
def fieldData (bal : Bool → Except PyErr (ℝ × ℝ × (Fin 3 → ℝ))) (minY : ℝ) :
    Except PyErr FieldData :=
  match bal true with
  | .error e => .error e
  | .ok (yn1, yp1, s1) =>
    match bal false with
    | .error e => .error e
    | .ok (yn, yp, s) =>
      .ok ⟨yn, yp, s 0 + s 1 * yp, s 0 + s 1 * yn, s1 0 + s1 1 * yp1, s1 0 + s1 1 * yn1, minY⟩

/-- sections/_generic.py:1243 `eps_p_lim`. -/
def FieldData.epsPLim (f : FieldData) : ℝ :=
  f.eps_n_b * ((f.y_n - f.min_y) - (f.y_n - f.y_p)) / (f.y_n - f.min_y)

/-- sections/_generic.py:1252 `z_pivot`. -/
def FieldData.zPivot (f : FieldData) : ℝ :=
  f.y_n - (1 - f.eps_n_y / f.eps_n_b) * (f.y_n - f.min_y)

/-- A field of profiles: pairs (strain at `y_n`, strain at `y_p`). -/
abbrev Profiles := Except PyErr (List (ℝ × ℝ))

/-- sections/_generic.py:1223-1230 fields 1 and 2: pivot on the positive strain. -/
def fieldPos (f : FieldData) (a b : ℝ) (n : ℤ) (ty : Spacing) : Profiles :=
  match npSpace a b n ty false with
  | .error e => .error e
  | .ok l => .ok (l.map fun x => (x, f.eps_p_b))

/-- sections/_generic.py:1232-1247 fields 3, 4 and 5: pivot on the negative strain. -/
def fieldNeg (f : FieldData) (a b : ℝ) (n : ℤ) (ty : Spacing) : Profiles :=
  match npSpace a b n ty false with
  | .error e => .error e
  | .ok l => .ok (l.map fun x => (f.eps_n_b, x))

/-- sections/_generic.py:1249-1272 field 6.  Division by zero (`z_pivot = y_p`) gives nan in numpy,
0 in the model. -/
def field6 (f : FieldData) (rc : Bool) (n : ℤ) (ty : Spacing) : Profiles :=
  if rc then
    match npSpace f.epsPLim f.eps_n_y (n - 1) ty false with
    | .error e => .error e
    | .ok l => .ok ((l ++ [f.eps_n_y]).map fun x =>
        (-(f.eps_n_y - x) * (f.zPivot - f.y_n) / (f.zPivot - f.y_p) + f.eps_n_y, x))
  else
    match npSpace f.epsPLim f.eps_n_b (n - 1) ty false with
    | .error e => .error e
    | .ok l => .ok ((l ++ [f.eps_n_b]).map fun x => (f.eps_n_b, x))

/-- sections/_generic.py:1223-1272: the six fields. -/
def sixFields (f : FieldData) (rc : Bool) (num : Fin 6 → ℤ) (ty : Fin 6 → Spacing) :
    Fin 6 → Profiles :=
  ![fieldPos f f.eps_p_b 0 (num 0) (ty 0),
    fieldPos f 0 f.eps_n_b (num 1) (ty 1),
    fieldNeg f f.eps_p_b f.eps_p_y (num 2) (ty 2),
    fieldNeg f f.eps_p_y 0 (num 3) (ty 3),
    fieldNeg f 0 f.epsPLim (num 4) (ty 4),
    field6 f rc (num 5) (ty 5)]

/-- sections/_generic.py:1275-1284: components of one profile in the section's axes. -/
def profilePlane (f : FieldData) (theta : ℝ) (p : ℝ × ℝ) : Fin 3 → ℝ :=
  let kappa := (p.1 - p.2) / (f.y_n - f.y_p)
  let r := rot2 theta (kappa, 0)
  ![p.1 - kappa * f.y_n, r.1, r.2]

/-- sections/_generic.py:1127-1284 `_compute_ultimate_strain_profiles`: planes and field numbers.
(All argument errors are `ValueError`s, so their order does not matter; `np.repeat` and `np.zeros`
with negative counts raise the same as `_np_space`.) -/
def ultimateProfiles (bal : Bool → Except PyErr (ℝ × ℝ × (Fin 3 → ℝ))) (minY : ℝ) (rc : Bool)
    (theta : ℝ) (num : Fin 6 → ℤ) (ty : Fin 6 → Spacing) :
    Except PyErr (List (Fin 3 → ℝ) × List ℕ) :=
  match fieldData bal minY with
  | .error e => .error e
  | .ok f =>
    match (List.finRange 6).mapM (sixFields f rc num ty) with
    | .error e => .error e
    | .ok fields =>
      .ok (fields.flatten.map (profilePlane f theta),
        (List.finRange 6).flatMap fun i => List.replicate (num i).toNat (i.val + 1))

/-- `l[-2:0:-1]`: without the first and last element, reversed. -/
def dropEndsRev {α : Type} (l : List α) : List α := (l.dropLast.drop 1).reverse

/-- sections/_generic.py:1055-1102: profiles of the N-M domain, with `complete_domain` also those
for `theta + pi` in reverse order without the first and last. -/
def nmProfiles (bal : ℝ → Bool → Except PyErr (ℝ × ℝ × (Fin 3 → ℝ))) (minY : ℝ → ℝ) (rc : Bool)
    (theta : ℝ) (num : Fin 6 → ℤ) (ty : Fin 6 → Spacing) (complete : Bool) :
    Except PyErr (List (Fin 3 → ℝ) × List ℕ) :=
  match ultimateProfiles (bal (-theta)) (minY (-theta)) rc theta num ty with
  | .error e => .error e
  | .ok (s, k) =>
    if complete then
      match ultimateProfiles (bal (-(theta + Real.pi))) (minY (-(theta + Real.pi))) rc
          (theta + Real.pi) num ty with
      | .error e => .error e
      | .ok (s', k') => .ok (s ++ dropEndsRev s', k ++ dropEndsRev k')
    else .ok (s, k)

/-- sections/_generic.py:1355-1372: the loop over the angles of the N-My-Mz domain; the field numbers
are those of the last angle. -/
def nmmLoop (bal : ℝ → Bool → Except PyErr (ℝ × ℝ × (Fin 3 → ℝ))) (minY : ℝ → ℝ) (rc : Bool)
    (num : Fin 6 → ℤ) (ty : Fin 6 → Spacing) :
    List ℝ → List (Fin 3 → ℝ) → Option (List ℕ) → Except PyErr (List (Fin 3 → ℝ) × Option (List ℕ))
  | [], acc, k => .ok (acc, k)
  | theta :: rest, acc, _ =>
    match ultimateProfiles (bal (-theta)) (minY (-theta)) rc theta num ty with
    | .error e => .error e
    | .ok (s, k) => nmmLoop bal minY rc num ty rest (acc ++ s) (some k)

/-- sections/_generic.py:1286-1395 `calculate_nmm_interaction_domain`: strain profiles and field
numbers (`None` models the unbound local when `num_theta = 0`; line 1393 then raises). -/
def nmmProfiles (bal : ℝ → Bool → Except PyErr (ℝ × ℝ × (Fin 3 → ℝ))) (minY : ℝ → ℝ) (rc : Bool)
    (numTheta : ℕ) (num : Fin 6 → ℤ) (ty : Fin 6 → Spacing) :
    Except PyErr (List (Fin 3 → ℝ) × List ℕ) :=
  match nmmLoop bal minY rc num ty (linspace 0 (Real.pi * 2) numTheta true) [] none with
  | .error e => .error e
  | .ok (_, none) => .error .unboundLocal
  | .ok (s, some k) => .ok (s, k)

/-- Python `int(x)` of a float: truncation towards zero. -/
def pyInt (x : ℝ) : ℤ := if 0 ≤ x then ⌊x⌋ else ⌈x⌉

/-- Default numbers of profiles, sections/_generic.py:939-944. -/
def defaultNum : Fin 6 → ℤ := ![1, 2, 15, 10, 3, 4]

/-- sections/_generic.py:936-990 `_process_num_strain_profiles`. -/
def processNum (num : ℤ) (mins : Fin 6 → ℤ) : Fin 6 → ℤ :=
  fun i => max (pyInt ((num : ℝ) / 35 * defaultNum i)) (mins i)

end

end SC
