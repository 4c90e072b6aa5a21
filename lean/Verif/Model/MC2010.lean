import Verif.Model.Str
import Mathlib.Analysis.SpecialFunctions.Log.Basic

/-! # structuralcodes/codes/mc2010/_concrete_material_properties.py, _reinforcement_material_properties.py,
_concrete_creep_and_shrinkage.py

`math.pow`, `**` with a fractional exponent and `np.sqrt` are `Real.rpow` and `Real.sqrt`; the theorems
assume non-negative bases (Python would raise or return a complex number otherwise).  Functions without
a `raise` statement of their own are modelled as formulas; where a Python division could hit zero the
theorems assume non-zero divisors.  Array arguments are handled elementwise by numpy; the model is the
scalar function, and the array version where the code is different. -/

set_option autoImplicit false

namespace SC.MC2010

noncomputable section

/-- codes/mc2010/_concrete_material_properties.py:29-45. -/
def fcm (fck : ℝ) (delta_f : ℝ := 8) : ℝ := |fck| + |delta_f|

open Classical in
/-- codes/mc2010/_concrete_material_properties.py:48-62. -/
def fctm (fck : ℝ) : ℝ :=
  if |fck| ≤ 50 then 0.3 * |fck| ^ ((2 : ℝ) / 3) else 2.12 * Real.log (1 + 0.1 * fcm fck)

/-- codes/mc2010/_concrete_material_properties.py:65-77. -/
def fctkmin (fctm : ℝ) : ℝ := 0.7 * fctm
/-- codes/mc2010/_concrete_material_properties.py:80-92. -/
def fctkmax (fctm : ℝ) : ℝ := 1.3 * fctm
/-- codes/mc2010/_concrete_material_properties.py:95-107. -/
def Gf (fck : ℝ) : ℝ := 73 * fcm fck ^ (0.18 : ℝ)

/-- codes/mc2010/_concrete_material_properties.py:12-17 `ALPHA_E`. -/
def alphaE : List Char → Option ℝ
  | ['b', 'a', 's', 'a', 'l', 't'] => some 1.2
  | ['q', 'u', 'a', 'r', 't', 'z', 'i', 't', 'e'] => some 1
  | ['l', 'i', 'm', 'e', 's', 't', 'o', 'n', 'e'] => some 0.9
  | ['s', 'a', 'n', 'd', 's', 't', 'o', 'n', 'e'] => some 0.7
  | _ => none

/-- codes/mc2010/_concrete_material_properties.py:110-135: an unknown aggregate is a `KeyError`. -/
def Eci (fcm : ℝ) (agg : List Char) (EC0 : ℝ := 21500) : Except PyErr ℝ :=
  match alphaE (pyLower agg) with
  | none => .error .keyError
  | some a => .ok (EC0 * a * (fcm / 10) ^ ((1 : ℝ) / 3))

/-- codes/mc2010/_concrete_material_properties.py:19-26 `S_CEM`. -/
def sCem : List Char → Option ℝ
  | ['3', '2', '.', '5', ' ', 'R'] => some 0.25
  | ['4', '2', '.', '5', ' ', 'N'] => some 0.25
  | ['4', '2', '.', '5', ' ', 'R'] => some 0.2
  | ['5', '2', '.', '5', ' ', 'N'] => some 0.2
  | ['5', '2', '.', '5', ' ', 'R'] => some 0.2
  | ['3', '2', '.', '5', ' ', 'N'] => some 0.38
  | _ => none

open Classical in
/-- codes/mc2010/_concrete_material_properties.py:138-162. -/
def beta_cc (time fcm : ℝ) (cem : List Char) : Except PyErr ℝ :=
  if fcm > 60 then .ok (Real.exp (0.2 * (1 - Real.sqrt (28 / time))))
  else match sCem (pyUpper cem) with
    | none => .error .keyError
    | some s => .ok (Real.exp (s * (1 - Real.sqrt (28 / time))))

/-- codes/mc2010/_concrete_material_properties.py:165-178. -/
def beta_e (beta_cc : ℝ) : ℝ := Real.sqrt beta_cc
/-- codes/mc2010/_concrete_material_properties.py:181-198. -/
def Eci_t (beta_e Eci : ℝ) : ℝ := beta_e * Eci
/-- codes/mc2010/_concrete_material_properties.py:201-218. -/
def fcd (fck : ℝ) (alpha_cc : ℝ := 1) (gamma_c : ℝ := 1.5) : Except PyErr ℝ :=
  pyDiv (|alpha_cc| * |fck|) |gamma_c|

/-- codes/mc2010/_concrete_material_properties.py:240-263: the table of `eps_c1`. -/
def epsC1Table : List (ℝ × ℝ) := [(12, -1.9), (16, -2.0), (20, -2.1), (25, -2.2), (30, -2.3), (35, -2.3),
  (40, -2.4), (45, -2.5), (50, -2.6), (55, -2.6), (60, -2.7), (70, -2.7), (80, -2.8), (90, -2.9), (100, -3.0),
  (110, -3.0), (120, -3.0)]
/-- codes/mc2010/_concrete_material_properties.py:286-309: the table of `eps_clim`. -/
def epsClimTable : List (ℝ × ℝ) := [(12, -3.5), (16, -3.5), (20, -3.5), (25, -3.5), (30, -3.5), (35, -3.5),
  (40, -3.5), (45, -3.5), (50, -3.4), (55, -3.4), (60, -3.3), (70, -3.2), (80, -3.1), (90, -3.0), (100, -3.0),
  (110, -3.0), (120, -3.0)]
/-- codes/mc2010/_concrete_material_properties.py:330-353: the table of `k_sargin`. -/
def kSarginTable : List (ℝ × ℝ) := [(12, 2.44), (16, 2.36), (20, 2.28), (25, 2.15), (30, 2.04), (35, 1.92),
  (40, 1.82), (45, 1.74), (50, 1.66), (55, 1.61), (60, 1.55), (70, 1.47), (80, 1.41), (90, 1.36), (100, 1.32),
  (110, 1.24), (120, 1.18)]

open Classical in
/-- codes/mc2010/_concrete_material_properties.py:264-269, 310-315, 354-359: range check and
interpolation in a table (`np.interp` without `left`/`right` continues with the end values). -/
def tableLookup (table : List (ℝ × ℝ)) (fck : ℝ) : Except PyErr ℝ :=
  if fck < 12 ∨ fck > 120 then .error .valueError
  else .ok (interp fck table (table.head?.map Prod.snd |>.getD 0) (table.getLast?.map Prod.snd |>.getD 0))

/-- codes/mc2010/_concrete_material_properties.py:221-269. -/
def eps_c1 (fck : ℝ) : Except PyErr ℝ := (tableLookup epsC1Table fck).map (· / 1000)
/-- codes/mc2010/_concrete_material_properties.py:272-315. -/
def eps_clim (fck : ℝ) : Except PyErr ℝ := (tableLookup epsClimTable fck).map (· / 1000)
/-- codes/mc2010/_concrete_material_properties.py:318-359. -/
def k_sargin (fck : ℝ) : Except PyErr ℝ := tableLookup kSarginTable fck
/-- codes/mc2010/_concrete_material_properties.py:362-375. -/
def eps_cu1 (fck : ℝ) : Except PyErr ℝ := eps_clim fck

open Classical in
/-- codes/mc2010/_concrete_material_properties.py:378-395. -/
def eps_c2 (fck : ℝ) : ℝ :=
  if |fck| ≤ 50 then 2 / 1000 else (2 + 0.085 * (|fck| - 50) ^ (0.53 : ℝ)) / 1000
open Classical in
/-- codes/mc2010/_concrete_material_properties.py:398-415. -/
def eps_cu2 (fck : ℝ) : ℝ :=
  if |fck| ≤ 50 then 3.5 / 1000 else (2.6 + 35 * ((90 - |fck|) / 100) ^ 4) / 1000
open Classical in
/-- codes/mc2010/_concrete_material_properties.py:418-431. -/
def n_parabolic_rectangular (fck : ℝ) : ℝ :=
  if |fck| ≤ 50 then 2 else 1.4 + 23.4 * ((90 - |fck|) / 100) ^ 4
open Classical in
/-- codes/mc2010/_concrete_material_properties.py:434-448. -/
def eps_c3 (fck : ℝ) : ℝ :=
  if |fck| ≤ 50 then 1.75 / 1000 else (1.75 + 0.55 * (|fck| - 50) / 40) / 1000
/-- codes/mc2010/_concrete_material_properties.py:451-463. -/
def eps_cu3 (fck : ℝ) : ℝ := eps_cu2 fck

/-! ### Reinforcement -/

open Classical in
/-- codes/mc2010/_reinforcement_material_properties.py:25-45. -/
def fyd (fyk : ℝ) (gamma_s : ℝ := 1.15) : Except PyErr ℝ :=
  if fyk < 0 then .error .valueError
  else if gamma_s < 1 then .error .valueError
  else .ok (fyk / gamma_s)

open Classical in
/-- codes/mc2010/_reinforcement_material_properties.py:48-70. -/
def epsud (epsuk : ℝ) (gamma_eps : ℝ := 0.9) : Except PyErr ℝ :=
  if epsuk < 0 then .error .valueError
  else if gamma_eps > 1 then .error .valueError
  else .ok (epsuk * gamma_eps)

/-- codes/mc2010/_reinforcement_material_properties.py:5-22 `DUCTILITY_CLASSES`: epsuk, k. -/
def ductilityClass : List Char → Option (ℝ × ℝ)
  | ['A'] => some (2.5e-2, 1.05)
  | ['B'] => some (5.0e-2, 1.08)
  | ['C'] => some (7.5e-2, 1.15)
  | ['D'] => some (8.0e-2, 1.25)
  | _ => none

/-- codes/mc2010/_reinforcement_material_properties.py:73-105: `epsuk` and `ftk`. -/
def reinforcement_duct_props (fyk : ℝ) (cls : List Char) : Except PyErr (ℝ × ℝ) :=
  match ductilityClass (pyUpper cls) with
  | none => .error .valueError
  | some (e, k) => .ok (e, k * fyk)

/-! ### Creep and shrinkage -/

/-- codes/mc2010/_concrete_creep_and_shrinkage.py:19-50: `ALPHA`, `ALPHA_BS`, `ALPHA_DS1`, `ALPHA_DS2`. -/
def cemRow : List Char → Option (ℝ × ℝ × ℝ × ℝ)
  | ['3', '2', '.', '5', ' ', 'R'] => some (0, 700, 4, 0.012)
  | ['4', '2', '.', '5', ' ', 'N'] => some (0, 700, 4, 0.012)
  | ['4', '2', '.', '5', ' ', 'R'] => some (1, 600, 6, 0.012)
  | ['5', '2', '.', '5', ' ', 'N'] => some (1, 600, 6, 0.012)
  | ['5', '2', '.', '5', ' ', 'R'] => some (1, 600, 6, 0.012)
  | ['3', '2', '.', '5', ' ', 'N'] => some (-1, 800, 3, 0.013)
  | _ => none

open Classical in
/-- codes/mc2010/_concrete_creep_and_shrinkage.py:77-108 (warnings are not modelled). -/
def checkInitialStress (sigma fcm : ℝ) : Except PyErr Unit :=
  if |sigma| > 0.6 * fcm then .error .valueError else .ok ()

open Classical in
/-- codes/mc2010/_concrete_creep_and_shrinkage.py:134-155. -/
def checkRH (rh : ℝ) : Except PyErr Unit :=
  if (rh < 0.4 ∨ rh > 1) ∧ (rh < 40 ∨ rh > 100) then .error .valueError else .ok ()

/-- codes/mc2010/_concrete_creep_and_shrinkage.py:182-228, scalars. -/
def t_T (T dt : ℝ) : ℝ := Real.exp (13.65 - 4000 / (273 + T)) * dt

/-- codes/mc2010/_concrete_creep_and_shrinkage.py:216-227, arrays: shapes must be equal. -/
def t_T_arr (T dt : List ℝ) : Except PyErr ℝ :=
  if T.length ≠ dt.length then .error .valueError
  else .ok ((T.zip dt).map fun p => Real.exp (13.65 - 4000 / (273 + p.1)) * p.2).sum

/-- codes/mc2010/_concrete_creep_and_shrinkage.py:231-259. -/
def t0_adj (t_T : ℝ) (cem : List Char) : Except PyErr ℝ :=
  match cemRow cem with
  | none => .error .keyError
  | some (a, _, _, _) => .ok (max (t_T * (9 / (2 + t_T ^ (1.2 : ℝ)) + 1) ^ a) 0.5)

/-- codes/mc2010/_concrete_creep_and_shrinkage.py:262-284. -/
def eps_cds0 (fcm : ℝ) (cem : List Char) : Except PyErr ℝ :=
  match cemRow cem with
  | none => .error .keyError
  | some (_, _, d1, d2) => .ok ((220 + 110 * d1) * Real.exp (-d2 * fcm) * 1e-6)

/-- codes/mc2010/_concrete_creep_and_shrinkage.py:287-311, scalar time. -/
def beta_ds (time ts h : ℝ) : ℝ :=
  Real.sqrt (max (time - ts) 0 / (0.035 * h ^ 2 + max (time - ts) 0))

/-- codes/mc2010/_concrete_creep_and_shrinkage.py:305-311, array of times. -/
def beta_ds_arr {ι : Type*} (time : ι → ℝ) (ts h : ℝ) : ι → ℝ :=
  let td := fun i => time i - ts
  let td := maskSet (fun i => td i < 0) (fun _ => 0) td
  fun i => Real.sqrt (td i / (0.035 * h ^ 2 + td i))

/-- codes/mc2010/_concrete_creep_and_shrinkage.py:314-326. -/
def beta_s1 (fcm : ℝ) : ℝ := min ((35 / fcm) ^ (0.1 : ℝ)) 1

open Classical in
/-- codes/mc2010/_concrete_creep_and_shrinkage.py:345-346, 535-536: per cent become a fraction. -/
def rhFraction (rh : ℝ) : ℝ := if rh > 1 then rh / 100 else rh

open Classical in
/-- codes/mc2010/_concrete_creep_and_shrinkage.py:329-354. -/
def beta_RH (rh beta_s1 : ℝ) : Except PyErr ℝ :=
  match checkRH rh with
  | .error e => .error e
  | .ok _ =>
    if rhFraction rh ≥ 0.99 * beta_s1 then .ok 0.25
    else if 0.4 * beta_s1 ≤ rhFraction rh ∧ rhFraction rh < 0.99 * beta_s1 then .ok (-1.55 * (1 - rhFraction rh ^ 3))
    else .error .valueError

/-- codes/mc2010/_concrete_creep_and_shrinkage.py:357-379. -/
def eps_cds (eps_cds0 beta_ds beta_rh : ℝ) : ℝ := eps_cds0 * beta_rh * beta_ds

/-- codes/mc2010/_concrete_creep_and_shrinkage.py:382-401. -/
def eps_cbs0 (fcm : ℝ) (cem : List Char) : Except PyErr ℝ :=
  match cemRow cem with
  | none => .error .keyError
  | some (_, b, _, _) => .ok (-b * (0.1 * fcm / (6 + 0.1 * fcm)) ^ (2.5 : ℝ) * 1e-6)

/-- codes/mc2010/_concrete_creep_and_shrinkage.py:404-420. -/
def beta_bs (time : ℝ) : ℝ := 1 - Real.exp (-0.2 * Real.sqrt time)
/-- codes/mc2010/_concrete_creep_and_shrinkage.py:423-440. -/
def eps_cbs (eps_cbs0 beta_bs : ℝ) : ℝ := eps_cbs0 * beta_bs
/-- codes/mc2010/_concrete_creep_and_shrinkage.py:443-456. -/
def beta_bc_fcm (fcm : ℝ) : ℝ := 1.8 / fcm ^ (0.7 : ℝ)
/-- codes/mc2010/_concrete_creep_and_shrinkage.py:459-479. -/
def beta_bc_t (time t0 t0_adj : ℝ) : ℝ := Real.log ((30 / t0_adj + 0.035) ^ 2 * (time - t0) + 1)
/-- codes/mc2010/_concrete_creep_and_shrinkage.py:482-500. -/
def phi_bc (beta_bc_fcm beta_bc_t : ℝ) : ℝ := beta_bc_fcm * beta_bc_t
/-- codes/mc2010/_concrete_creep_and_shrinkage.py:503-515. -/
def beta_dc_fcm (fcm : ℝ) : ℝ := 412 / fcm ^ (1.4 : ℝ)
/-- codes/mc2010/_concrete_creep_and_shrinkage.py:518-537. -/
def beta_dc_RH (rh h : ℝ) : Except PyErr ℝ :=
  match checkRH rh with
  | .error e => .error e
  | .ok _ => .ok ((1 - rhFraction rh) / (0.1 * h / 100) ^ ((1 : ℝ) / 3))
/-- codes/mc2010/_concrete_creep_and_shrinkage.py:540-555. -/
def beta_dc_t0 (t0_adj : ℝ) : ℝ := 1 / (0.1 + t0_adj ^ (0.2 : ℝ))
/-- codes/mc2010/_concrete_creep_and_shrinkage.py:558-570. -/
def alpha_fcm (fcm : ℝ) : ℝ := Real.sqrt (35 / fcm)
/-- codes/mc2010/_concrete_creep_and_shrinkage.py:573-588. -/
def beta_h (h alpha_fcm : ℝ) : ℝ := min (1.5 * h + 250 * alpha_fcm) (1500 * alpha_fcm)
/-- codes/mc2010/_concrete_creep_and_shrinkage.py:591-606. -/
def gamma_t0 (t0_adj : ℝ) : ℝ := 1 / (2.3 + 3.5 / Real.sqrt t0_adj)
/-- codes/mc2010/_concrete_creep_and_shrinkage.py:609-635. -/
def beta_dc_t (time t0 beta_h gamma_t0 : ℝ) : ℝ := ((time - t0) / (beta_h + (time - t0))) ^ gamma_t0
/-- codes/mc2010/_concrete_creep_and_shrinkage.py:638-665. -/
def phi_dc (beta_dc_fcm beta_dc_RH beta_dc_t0 beta_dc_t : ℝ) : ℝ :=
  beta_dc_fcm * beta_dc_RH * beta_dc_t0 * beta_dc_t

/-- codes/mc2010/_concrete_creep_and_shrinkage.py:668-684. -/
def k_sigma (sigma fcm : ℝ) : Except PyErr ℝ :=
  match checkInitialStress sigma fcm with
  | .error e => .error e
  | .ok _ => .ok |sigma / fcm|

open Classical in
/-- codes/mc2010/_concrete_creep_and_shrinkage.py:687-717. -/
def phi (phi_bc phi_dc sigma fcm : ℝ) : Except PyErr ℝ :=
  match k_sigma sigma fcm with
  | .error e => .error e
  | .ok k => if 0.4 < k ∧ k ≤ 0.6 then .ok (Real.exp (1.5 * (k - 0.4)) * (phi_bc + phi_dc)) else .ok (phi_bc + phi_dc)

/-- codes/mc2010/_concrete_creep_and_shrinkage.py:720-738. -/
def calc_J (E_ci_t0 phi E_ci : ℝ) : ℝ := 1 / E_ci_t0 + phi / E_ci

end

end SC.MC2010
