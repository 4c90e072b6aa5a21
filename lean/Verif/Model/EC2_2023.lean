import Verif.Model.MC2010
import Verif.Model.EC2_2004Crack
import Verif.Model.Griddata

/-! # EC2 2023: materials (section 5), annex B, serviceability (section 9)

Numbers are reals, strings lists of characters, `griddata` a parameter (see `Model/Griddata.lean`). Divisions whose divisor
the code does not check raise `ZeroDivisionError` (`pyDiv`) in section 5; in section 9 (pure formulas without checks) the
divisors are assumed non-zero. -/

set_option autoImplicit false

namespace SC.EC2_2023

noncomputable section

/-! ### _section5_materials.py -/

/-- codes/ec2_2023/_section5_materials.py:29-44. -/
def fcm (fck : ℝ) (delta_f : ℝ := 8) : ℝ := MC2010.fcm fck delta_f

open Classical in
/-- codes/ec2_2023/_section5_materials.py:47-61. -/
def fctm (fck : ℝ) : ℝ := if |fck| ≤ 50 then 0.3 * |fck| ^ ((2 : ℝ) / 3) else 1.1 * |fck| ^ ((1 : ℝ) / 3)
/-- codes/ec2_2023/_section5_materials.py:64-75. -/
def fctk_5 (fctm : ℝ) : ℝ := |fctm| * 0.7
/-- codes/ec2_2023/_section5_materials.py:78-89. -/
def fctk_95 (fctm : ℝ) : ℝ := |fctm| * 1.3

/-- codes/ec2_2023/_section5_materials.py:92-118. -/
def Ecm (fcm : ℝ) (kE : ℝ := 9500) : Except PyErr ℝ := do
  raiseIf (fcm < 0)
  raiseIf (kE < 5000)
  raiseIf (kE > 13000)
  return kE * fcm ^ ((1 : ℝ) / 3)

/-- codes/ec2_2023/_section5_materials.py:121-142. -/
def hn (Ac u : ℝ) : Except PyErr ℝ := do
  raiseIf (Ac < 0)
  raiseIf (u < 0)
  pyDiv (2 * Ac) u

inductive Atm | dry | humid
  deriving DecidableEq

/-- `atm_conditions.lower().strip()` compared with "dry" and "humid". -/
def atm (s : List Char) : Except PyErr Atm :=
  let s := pyStrip (pyLower s)
  if s = ['d', 'r', 'y'] then .ok .dry else if s = ['h', 'u', 'm', 'i', 'd'] then .ok .humid else .error .valueError

inductive Dev | slow | normal | rapid
  deriving DecidableEq

/-- `strength_dev_class.upper().strip()` looked up among CS/SLOW, CN/NORMAL, CR/RAPID (lines 11, 256-268, 376-394). -/
def dev (s : List Char) : Except PyErr Dev :=
  let s := pyStrip (pyUpper s)
  if s = ['C', 'S'] ∨ s = ['S', 'L', 'O', 'W'] then .ok .slow
  else if s = ['C', 'N'] ∨ s = ['N', 'O', 'R', 'M', 'A', 'L'] then .ok .normal
  else if s = ['C', 'R'] ∨ s = ['R', 'A', 'P', 'I', 'D'] then .ok .rapid
  else .error .valueError

/-- codes/ec2_2023/_section5_materials.py:170-174: the two tables. -/
def aPhiTable : Atm → List (ℝ × ℝ)
  | .dry => [(100, 0.82), (200, 0.79), (500, 0.75), (1000, 0.72)]
  | .humid => [(100, 0.71), (200, 0.68), (500, 0.66), (1000, 0.64)]

/-- codes/ec2_2023/_section5_materials.py:170-174: value at the largest tabulated size, 1000. -/
def aPhiLo : Atm → ℝ
  | .dry => 0.72
  | .humid => 0.64
/-- codes/ec2_2023/_section5_materials.py:170-174: value at the smallest tabulated size, 100. -/
def aPhiHi : Atm → ℝ
  | .dry => 0.82
  | .humid => 0.71

/-- codes/ec2_2023/_section5_materials.py:145-182. `interp1d` inside its range (ensured by the checks) is `np.interp`. -/
def A_phi_correction_exp (hn : ℝ) (atm_conditions : List Char) : Except PyErr ℝ := do
  raiseIf (hn < 100)
  raiseIf (hn > 1000)
  let a ← atm atm_conditions
  return interp hn (aPhiTable a) (aPhiHi a) (aPhiLo a)

/-- codes/ec2_2023/_section5_materials.py:185-210. -/
def phi_correction_factor (fck A_exponent : ℝ) : Except PyErr ℝ := do
  raiseIf (fck < 12)
  raiseIf (fck > 100)
  raiseIf (A_exponent < 0.64)
  raiseIf (A_exponent > 0.82)
  return (35 / fck) ^ A_exponent

/-- codes/ec2_2023/_section5_materials.py:263-268. -/
def phiTimes : Dev → List ℝ
  | .slow => [3, 10, 32, 91, 365]
  | .normal => [1, 7, 28, 91, 365]
  | .rapid => [1, 3, 23, 91, 365]
/-- codes/ec2_2023/_section5_materials.py:272-317. -/
def phiValues : Atm → List ℝ
  | .dry => [4.2, 3.8, 3.4, 3.1, 3.1, 2.8, 2.5, 2.3, 2.4, 2.2, 1.9, 1.8, 1.9, 1.7, 1.5, 1.4, 1.4, 1.3, 1.1, 1.0]
  | .humid => [3.0, 2.8, 2.6, 2.5, 2.2, 2.1, 2.0, 1.9, 1.7, 1.6, 1.6, 1.5, 1.4, 1.3, 1.2, 1.2, 1.0, 0.9, 0.9, 0.8]

/-- `if math.isnan(x): raise ValueError`. -/
def orRaise (x : Option ℝ) : Except PyErr ℝ :=
  match x with
  | some v => .ok v
  | none => .error .valueError

/-- codes/ec2_2023/_section5_materials.py:213-328. -/
def phi_50y_t0 (grid : List ((ℝ × ℝ) × ℝ) → ℝ × ℝ → Option ℝ) (t0 : ℝ) (atm_conditions : List Char) (hn : ℝ)
    (strength_dev_class : List Char) : Except PyErr ℝ := do
  raiseIf (t0 < 1)
  let a ← atm atm_conditions
  raiseIf (hn < 100)
  raiseIf (hn > 1000)
  let d ← dev strength_dev_class
  orRaise (grid (gridData (phiTimes d) [100, 200, 500, 1000] (phiValues a)) (t0, hn))

/-- codes/ec2_2023/_section5_materials.py:384-389. -/
def csStrengths : Dev → List ℝ
  | .slow => [20, 35, 50]
  | .normal => [20, 35, 50, 80]
  | .rapid => [35, 50, 80]
/-- codes/ec2_2023/_section5_materials.py:398-495. -/
def csValues : Atm → Dev → List ℝ
  | .dry, .slow => [0.57, 0.56, 0.48, 0.36, 0.53, 0.51, 0.45, 0.35, 0.49, 0.48, 0.43, 0.35]
  | .dry, .normal => [0.67, 0.65, 0.56, 0.41, 0.60, 0.59, 0.51, 0.39, 0.55, 0.54, 0.48, 0.37, 0.48, 0.48, 0.43, 0.36]
  | .dry, .rapid => [0.76, 0.74, 0.65, 0.48, 0.67, 0.66, 0.58, 0.44, 0.55, 0.54, 0.49, 0.39]
  | .humid, .slow => [0.33, 0.32, 0.28, 0.21, 0.31, 0.31, 0.27, 0.22, 0.30, 0.29, 0.27, 0.23]
  | .humid, .normal => [0.38, 0.37, 0.32, 0.24, 0.34, 0.34, 0.30, 0.24, 0.31, 0.31, 0.28, 0.23, 0.30, 0.30, 0.28, 0.25]
  | .humid, .rapid => [0.42, 0.41, 0.36, 0.28, 0.36, 0.35, 0.32, 0.26, 0.31, 0.30, 0.28, 0.25]

/-- codes/ec2_2023/_section5_materials.py:331-507. -/
def eps_cs_50y (grid : List ((ℝ × ℝ) × ℝ) → ℝ × ℝ → Option ℝ) (fck_28 : ℝ) (atm_conditions : List Char) (hn : ℝ)
    (strength_dev_class : List Char) : Except PyErr ℝ := do
  raiseIf (fck_28 < 20)
  raiseIf (fck_28 > 80)
  let a ← atm atm_conditions
  raiseIf (hn < 100)
  raiseIf (hn > 1000)
  let d ← dev strength_dev_class
  orRaise (grid (gridData (csStrengths d) [100, 200, 500, 1000] (csValues a d)) (fck_28, hn))

/-- codes/ec2_2023/_section5_materials.py:510-535. -/
def eta_cc (fck : ℝ) (fck_ref : ℝ := 40) : Except PyErr ℝ := do
  raiseIf (fck < 12)
  raiseIf (fck_ref ≤ 0)
  return min ((fck_ref / fck) ^ ((1 : ℝ) / 3)) 1

/-- codes/ec2_2023/_section5_materials.py:576-584: the reference age up to which the class counts as developed. -/
def refAge : Dev → ℝ
  | .slow => 56
  | .normal => 28
  | .rapid => 28

open Classical in
/-- codes/ec2_2023/_section5_materials.py:538-586. -/
def k_tc (t_ref t0 : ℝ) (strength_dev_class : List Char) : Except PyErr ℝ := do
  raiseIf (t_ref < 0)
  raiseIf (t0 < 0)
  let d ← dev strength_dev_class
  return if t_ref ≤ refAge d ∧ t0 > 90 then 1 else 0.85

/-- codes/ec2_2023/_section5_materials.py:589-618. -/
def fcd (fck eta_cc k_tc gamma_c : ℝ) : Except PyErr ℝ := do
  raiseIf (fck < 12)
  raiseIf (eta_cc < 0 ∨ eta_cc > 1)
  raiseIf (gamma_c < 1)
  return eta_cc * k_tc * fck / gamma_c

open Classical in
/-- codes/ec2_2023/_section5_materials.py:621-661. -/
def k_tt (t_ref : ℝ) (strength_dev_class : List Char) : Except PyErr ℝ := do
  raiseIf (t_ref < 0)
  let d ← dev strength_dev_class
  return if t_ref ≤ refAge d then 0.8 else 0.7

/-- codes/ec2_2023/_section5_materials.py:664-687. -/
def fctd (fctk_5 k_tt gamma_c : ℝ) : Except PyErr ℝ := do
  raiseIf (fctk_5 < 0)
  raiseIf (gamma_c < 1)
  return k_tt * fctk_5 / gamma_c

/-- codes/ec2_2023/_section5_materials.py:690-708. -/
def eps_c1 (fcm : ℝ) : Except PyErr ℝ := do
  raiseIf (fcm < 20)
  return min (0.7 * fcm ^ ((1 : ℝ) / 3)) 2.8 / 1000

/-- codes/ec2_2023/_section5_materials.py:711-728. -/
def eps_cu1 (fcm : ℝ) : Except PyErr ℝ := do
  raiseIf (fcm < 20)
  return min (2.8 + 14 * (1 - fcm / 108) ^ 4) 3.5 / 1000

/-- codes/ec2_2023/_section5_materials.py:731-760. -/
def k_sargin (Ecm fcm eps_c1 : ℝ) : Except PyErr ℝ := do
  raiseIf (Ecm ≤ 0)
  raiseIf (fcm < 20)
  raiseIf (eps_c1 ≤ 0)
  return 1.05 * Ecm * eps_c1 / fcm

/-- codes/ec2_2023/_section5_materials.py:763-773. -/
def eps_c2 : ℝ := 2.0e-3
/-- codes/ec2_2023/_section5_materials.py:776-784. -/
def eps_cu2 : ℝ := 3.5e-3
/-- codes/ec2_2023/_section5_materials.py:787-794. -/
def n_parabolic_rectangular : ℝ := 2

/-- codes/ec2_2023/_section5_materials.py:797-822. -/
def weight_c (concrete_type : List Char) : Except PyErr ℝ :=
  let s := pyStrip (pyLower concrete_type)
  if s = ['n', 'c'] then .ok 25 else if s = ['n', 'p', 'c'] then .ok 24 else .error .valueError

/-- codes/ec2_2023/_section5_materials.py:825-835. -/
def alpha_c_th : ℝ := 10 * 10e-6
/-- codes/ec2_2023/_section5_materials.py:838-847. -/
def Es : ℝ := 200000
/-- codes/ec2_2023/_section5_materials.py:850-860. -/
def alpha_s_th : ℝ := 10 * 10e-6
/-- codes/ec2_2023/_section5_materials.py:863-872. -/
def weight_s : ℝ := 78.5

/-- codes/ec2_2023/_section5_materials.py:875-896. -/
def fyd (fyk gamma_s : ℝ) : Except PyErr ℝ := do
  raiseIf (fyk < 0)
  raiseIf (gamma_s < 1)
  return fyk / gamma_s
/-- codes/ec2_2023/_section5_materials.py:899-920. -/
def eps_ud (eps_uk gamma_s : ℝ) : Except PyErr ℝ := do
  raiseIf (eps_uk < 0)
  raiseIf (gamma_s < 1)
  return eps_uk / gamma_s

/-- codes/ec2_2023/_section5_materials.py:977-978: the hardening branch. -/
def hardening (fy fu eps_u E eps : ℝ) : Except PyErr ℝ := do
  let m ← pyDiv (fu - fy) (eps_u - fy / E)
  return fy + m * (eps - fy / E)

open Classical in
/-- codes/ec2_2023/_section5_materials.py:970-978 (and 1121-1129): linear, then hardening. -/
def bilinear (fy fu eps_u E eps : ℝ) : Except PyErr ℝ :=
  if eps ≤ fy / E then .ok (eps * E) else hardening fy fu eps_u E eps

/-- codes/ec2_2023/_section5_materials.py:923-978 (`fy * (k - 1) = fy * k - fy`). -/
def sigma_s (eps fy k eps_u : ℝ) (Es : ℝ := 200000) : Except PyErr ℝ := do
  raiseIf (eps < 0)
  raiseIf (eps_u ≤ 0)
  raiseIf (eps > eps_u ∧ k > 1)
  raiseIf (Es ≤ 0)
  raiseIf (fy ≤ 0)
  raiseIf (k < 0)
  bilinear fy (fy * k) eps_u Es eps

inductive Tendon | wire | strand | bar
  deriving DecidableEq

/-- codes/ec2_2023/_section5_materials.py:1017, 1039. -/
def tendon (s : List Char) : Except PyErr Tendon :=
  let s := pyStrip (pyUpper s)
  if s = ['W'] then .ok .wire else if s = ['S'] then .ok .strand else if s = ['B'] then .ok .bar else .error .valueError

/-- codes/ec2_2023/_section5_materials.py:1018-1037. -/
def prestressTable : Tendon → List (List Char × ℝ × ℝ)
  | .wire => [("Y1570".toList, 1380, 1570), ("Y1670".toList, 1470, 1670), ("Y1770".toList, 1550, 1770),
      ("Y1860".toList, 1650, 1860)]
  | .strand => [("Y1770".toList, 1560, 1770), ("Y1860".toList, 1640, 1860), ("Y1960".toList, 1740, 1960),
      ("Y2060".toList, 1830, 2060)]
  | .bar => [("Y1030".toList, 835, 1030), ("Y1050".toList, 950, 1050), ("Y1100".toList, 900, 1100),
      ("Y1230".toList, 1080, 1230)]

/-- codes/ec2_2023/_section5_materials.py:981-1049. -/
def p_steel_stress_params (prestress_class element : List Char) : Except PyErr (ℝ × ℝ) :=
  match tendon element with
  | .error e => .error e
  | .ok t =>
    match (prestressTable t).find? (fun r => r.1 = pyStrip (pyUpper prestress_class)) with
    | some r => .ok r.2
    | none => .error .valueError

/-- codes/ec2_2023/_section5_materials.py:1052-1074. -/
def fpd (fp01k gamma_P : ℝ) : Except PyErr ℝ := do
  raiseIf (fp01k < 0)
  raiseIf (gamma_P < 1)
  return fp01k / gamma_P

/-- codes/ec2_2023/_section5_materials.py:1077-1129. -/
def sigma_p (eps fpy fpu : ℝ) (eps_u : ℝ := 0.035) (Ep : ℝ := 190000) : Except PyErr ℝ := do
  raiseIf (eps < 0)
  raiseIf (eps_u ≤ 0)
  raiseIf (eps_u < eps ∧ fpy ≠ fpu)
  raiseIf (fpy ≤ 0)
  raiseIf (fpu < fpy)
  raiseIf (Ep ≤ 0)
  bilinear fpy fpu eps_u Ep eps

/-- codes/ec2_2023/_section5_materials.py:13-26, 1132-1160: `upper` without `strip`; returns `(epsuk, ftk)`. -/
def reinforcement_duct_props (fyk : ℝ) (ductility_class : List Char) : Except PyErr (ℝ × ℝ) :=
  let c := pyUpper ductility_class
  if c = ['A'] then .ok (2.5e-2, 1.05 * fyk)
  else if c = ['B'] then .ok (5.0e-2, 1.08 * fyk)
  else if c = ['C'] then .ok (7.5e-2, 1.15 * fyk)
  else .error .valueError

/-! ### _annexB_time_dependent.py and _section9_sls.py -/

/-- codes/ec2_2023/_annexB_time_dependent.py:4-17. -/
def alpha_c (fcm_28 : ℝ) : ℝ := max (1 / (0.8 + 0.2 * fcm_28 / 88)) 1

/-- codes/ec2_2023/_section9_sls.py:10-26. -/
def Ec_eff (fcm phi : ℝ) (kE : ℝ := 9500) : ℝ := alpha_c fcm * (kE * fcm ^ ((1 : ℝ) / 3)) / (1 + phi)
/-- codes/ec2_2023/_section9_sls.py:72-86. -/
def kh (b h : ℝ) : ℝ := min (max (0.8 - 0.6 * (min b h - 0.3)) 0.5) 0.8
/-- codes/ec2_2023/_section9_sls.py:29-69. -/
def As_min_y (NEd b h fct_eff fyk : ℝ) : ℝ × ℝ :=
  let a := min (max ((0.3 * NEd / 1000 + 0.2 * kh b h * fct_eff * b * h) / fyk) 0)
    (0.5 * kh b h * fct_eff * b * h / fyk) * 1e4
  (a, min (max (NEd / fyk * 10 - a) 0) a)
/-- codes/ec2_2023/_section9_sls.py:89-110. -/
def wk_cal2 (kw k_1_r srm_cal epssm_epscm : ℝ) : ℝ := kw * k_1_r * srm_cal * epssm_epscm
/-- codes/ec2_2023/_section9_sls.py:113-130. -/
def k_1_r (h x ay : ℝ) : ℝ := (h - x) / (h - ay - x)
/-- codes/ec2_2023/_section9_sls.py:133-166. -/
def epssm_epscm (sigma_s kt fct_eff rho_eff alphae Es : ℝ) : ℝ :=
  max ((sigma_s - kt * fct_eff / rho_eff * (1 + alphae * rho_eff)) / Es) ((1 - kt) * sigma_s / Es)
/-- codes/ec2_2023/_section9_sls.py:169-185. -/
def kfl (h xg hceff : ℝ) : ℝ := max (0.5 * (1 + (h - xg - hceff) / (h - xg))) 0.5
/-- codes/ec2_2023/_section9_sls.py:188-220. -/
def srm_cal (c kfl_ kb phi rho_eff kw h x : ℝ) : ℝ :=
  min (1.5 * c + kfl_ * kb / 7.2 * phi / rho_eff) (1.3 / kw * (h - x))
/-- codes/ec2_2023/_section9_sls.py:223-276: `(wk, k_1_r, srm, eps)`. -/
def wk_cal (kw h xg hc_eff c kb phi rho_eff x sigma_s kt fct_eff alphae Es : ℝ) : ℝ × ℝ × ℝ × ℝ :=
  let k := k_1_r h x (c + phi / 2)
  let s := srm_cal c (kfl h xg hc_eff) kb phi rho_eff kw h x
  let e := epssm_epscm sigma_s kt fct_eff rho_eff alphae Es
  (kw * k * s * e, k, s, e)

/-- codes/ec2_2023/_section9_sls.py:311: the cracking moment. -/
def Mcr (fck1 b1 h : ℝ) : ℝ := fctm fck1 * 1000 * b1 * h ^ 2 / 6
/-- codes/ec2_2023/_section9_sls.py:313-317: ratio of the second moments. -/
def IgIcr (fck1 phi1 b1 h d As1 : ℝ) : ℝ :=
  1 / (2.7 * (200000 / Ec_eff (fcm fck1) phi1 * (As1 / b1 / d * 1e-4)) ^ (0.6 : ℝ) * (d / h) ^ (3 : ℝ))
open Classical in
/-- codes/ec2_2023/_section9_sls.py:279-325. -/
def delta_simpl (delta_loads delta_shr fck1 phi1 b1 h d As1 Mk : ℝ) : ℝ :=
  let zeta := 1 - 0.5 * (Mcr fck1 b1 h / Mk) ^ 2
  let rho_l := As1 / b1 / d * 1e-4
  if Mk < Mcr fck1 b1 h then 1.00 * (delta_loads + 1.00 * delta_shr)
  else (zeta * IgIcr fck1 phi1 b1 h d As1 + (1 - zeta)) * (delta_loads + (455 * rho_l ^ 2 - 35 * rho_l + 1.6) * delta_shr)

end

end SC.EC2_2023

namespace SC.EC2_2004

/-- codes/ec2_2004/_cracking_restraint_imposed_deformations.py:4-41, `alpha_e rho_p_eff ≠ 0`, `Es ≠ 0`. -/
noncomputable def eps_sm_eps_cm_restraint_end (alpha_e rho_p_eff kc k fct_eff Es : ℝ) : ℝ :=
  0.5 * alpha_e * kc * k * fct_eff * (1 + 1 / (alpha_e * rho_p_eff)) / Es

end SC.EC2_2004
