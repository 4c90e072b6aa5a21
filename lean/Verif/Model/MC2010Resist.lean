import Verif.Model.MC2010
import Mathlib.Analysis.SpecialFunctions.Trigonometric.Bounds

/-! # structuralcodes/codes/mc2010/_concrete_shear.py, _concrete_punching.py, _concrete_torsion.py,
_interface_concrete_steel_rebar.py, _concrete_interface_different_casting_times.py

As in Verif/Model/MC2010.lean: functions without a `raise` of their own are formulas, and the theorems assume non-zero
divisors and non-negative bases of fractional powers.  Warnings are not modelled.  Angles are in degrees as in the
code.  `1 / tan(x * pi / 180)` is the real cotangent `cos / sin`, which is 0 at 90 degrees (in floating point it
is 6e-17 there). -/

set_option autoImplicit false

namespace SC.MC2010

noncomputable section

/-- `x * pi / 180`. -/
def rad (x : ℝ) : ℝ := x * Real.pi / 180
/-- `1 / tan(x * pi / 180)`, used throughout codes/mc2010/_concrete_shear.py:415-421, 493-503, 536-551. -/
def cotd (x : ℝ) : ℝ := Real.cos (rad x) / Real.sin (rad x)

/-! ### Shear -/

/-- codes/mc2010/_concrete_shear.py:54-71: the dictionary of loads. -/
structure Loads where
  Med : ℝ
  Ved : ℝ
  Ned : ℝ
  delta_e : ℝ

/-- codes/mc2010/_concrete_shear.py:8-37. -/
def epsilon_x (E_s As z : ℝ) (l : Loads) : ℝ :=
  max (1 / (2 * E_s * As) * (|l.Med| / z + |l.Ved| + l.Ned * (1 / 2 + l.delta_e / z))) 0

/-- codes/mc2010/_concrete_shear.py:40-51. -/
def eta_fc (fck : ℝ) : ℝ := min ((30 / fck) ^ ((1 : ℝ) / 3)) 1

/-- codes/mc2010/_concrete_shear.py:262-287. -/
def v_rdc_approx1 (fck z bw gamma_c : ℝ) : ℝ :=
  180 / (1000 + 1.25 * z) * min (fck ^ (0.5 : ℝ)) 8 * z * bw / gamma_c

open Classical in
/-- codes/mc2010/_concrete_shear.py:321-325: the aggregate size is dropped above 70 MPa. -/
def kDgShear (fck dg : ℝ) : ℝ := max (32 / (16 + (if fck > 70 then 0 else dg))) 0.75

/-- codes/mc2010/_concrete_shear.py:290-328. -/
def v_rdc_approx2 (fck z bw dg E_s As : ℝ) (l : Loads) (gamma_c : ℝ) : ℝ :=
  0.4 / (1 + 1500 * epsilon_x E_s As z l) * (1300 / (1000 + kDgShear fck dg * z)) * min (fck ^ (0.5 : ℝ)) 8 * z * bw / gamma_c

/-- codes/mc2010/_concrete_shear.py:499-502, 547-550. -/
def strut (theta alpha : ℝ) : ℝ := (cotd theta + cotd alpha) / (1 + cotd theta ^ 2)

/-- codes/mc2010/_concrete_shear.py:470-503. -/
def v_rd_max_approx1 (fck bw theta z alpha gamma_c : ℝ) : ℝ :=
  0.55 * eta_fc fck * (fck / gamma_c) * bw * z * strut theta alpha

/-- codes/mc2010/_concrete_shear.py:535-539; codes/mc2010/_concrete_torsion.py:64-68, 71-76. -/
def k_epsilon (epsilonx theta : ℝ) : ℝ :=
  min (1 / (1.2 + 55 * (epsilonx + (epsilonx + 0.002) * cotd theta ^ 2))) 0.65

/-- codes/mc2010/_concrete_shear.py:506-551. -/
def v_rd_max_approx2 (fck bw theta z E_s As : ℝ) (l : Loads) (alpha gamma_c : ℝ) : ℝ :=
  k_epsilon (epsilon_x E_s As z l) theta * eta_fc fck * (fck / gamma_c) * bw * z * strut theta alpha

/-- codes/mc2010/_concrete_shear.py:364, 582. -/
def theta_min (epsilonx : ℝ) : ℝ := 20 + 10000 * epsilonx

/-- codes/mc2010/_concrete_shear.py:554-586. -/
def v_rd_max_approx3 (fck bw z E_s As : ℝ) (l : Loads) (alpha gamma_c : ℝ) : ℝ :=
  v_rd_max_approx2 fck bw (theta_min (epsilon_x E_s As z l)) z E_s As l alpha gamma_c

/-- codes/mc2010/_concrete_shear.py:424-467. -/
def v_rd_max (lvl : ℤ) (fck bw theta z E_s As : ℝ) (l : Loads) (alpha gamma_c : ℝ) : Except PyErr ℝ :=
  if lvl = 1 then .ok (v_rd_max_approx1 fck bw theta z alpha gamma_c)
  else if lvl = 2 then .ok (v_rd_max_approx2 fck bw theta z E_s As l alpha gamma_c)
  else if lvl = 3 then .ok (v_rd_max_approx3 fck bw z E_s As l alpha gamma_c)
  else .error .valueError

/-- codes/mc2010/_concrete_shear.py:377-382, the last step of `v_rdc_approx3`. -/
def vrdc3 (fck z bw gamma_c epsilonx Ved V_rd_max : ℝ) : ℝ :=
  max (0.4 / (1 + 1500 * epsilonx) * (1 - Ved / V_rd_max)) 0 * min (fck ^ (0.5 : ℝ)) 8 * z * bw / gamma_c

/-- codes/mc2010/_concrete_shear.py:331-382. -/
def v_rdc_approx3 (lvl : ℤ) (fck z bw E_s As : ℝ) (l : Loads) (alpha gamma_c : ℝ) : Except PyErr ℝ := do
  let m ← v_rd_max lvl fck bw (theta_min (epsilon_x E_s As z l)) z E_s As l alpha gamma_c
  pure (vrdc3 fck z bw gamma_c (epsilon_x E_s As z l) l.Ved m)

/-- codes/mc2010/_concrete_shear.py:209-259. -/
def v_rdc (lvl : ℤ) (fck z bw dg E_s As : ℝ) (l : Loads) (alpha gamma_c : ℝ) : Except PyErr ℝ :=
  if lvl = 1 then .ok (v_rdc_approx1 fck z bw gamma_c)
  else if lvl = 2 then .ok (v_rdc_approx2 fck z bw dg E_s As l gamma_c)
  else if lvl = 3 then v_rdc_approx3 lvl fck z bw E_s As l alpha gamma_c
  else .error .valueError

/-- codes/mc2010/_concrete_shear.py:385-421. -/
def v_rds (asw sw z f_ywk theta alpha : ℝ) (gamma_s : ℝ := 1.15) : ℝ :=
  asw / sw * z * (f_ywk / gamma_s) * (cotd theta + cotd alpha) * Real.sin (rad alpha)

/-- codes/mc2010/_concrete_shear.py:141-156: levels 1 and 2; `v_rds` gets the characteristic strength and its own
default partial factor. -/
def v_rd12 (lvl : ℤ) (fck z bw E_s As : ℝ) (l : Loads) (asw sw f_ywk theta alpha gamma_c : ℝ) : Except PyErr ℝ := do
  let m ← v_rd_max lvl fck bw theta z E_s As l alpha gamma_c
  pure (min (v_rds asw sw z f_ywk theta alpha) m)

open Classical in
/-- codes/mc2010/_concrete_shear.py:185-204: the choice at level 3 (the fallback is level 2). -/
def v_rd3 (fck z bw E_s As : ℝ) (l : Loads) (asw sw f_ywk theta alpha gamma_c f_ywd V_rdc V_rd_max : ℝ) :
    Except PyErr ℝ :=
  if V_rdc + v_rds asw sw z f_ywd theta alpha < V_rd_max then .ok (V_rdc + v_rds asw sw z f_ywd theta alpha)
  else v_rd12 2 fck z bw E_s As l asw sw f_ywk theta alpha gamma_c

/-- codes/mc2010/_concrete_shear.py:139-206: with shear reinforcement, all four optional arguments given. -/
def v_rd_with (lvl : ℤ) (fck z bw dg E_s As : ℝ) (l : Loads) (asw sw f_ywk theta alpha gamma_c gamma_s : ℝ) :
    Except PyErr ℝ :=
  if lvl = 1 ∨ lvl = 2 then v_rd12 lvl fck z bw E_s As l asw sw f_ywk theta alpha gamma_c
  else if lvl = 3 then do
    let V_rdc ← v_rdc lvl fck z bw dg E_s As l alpha gamma_c
    let V_rd_max ← v_rd_max lvl fck bw theta z E_s As l alpha gamma_c
    v_rd3 fck z bw E_s As l asw sw f_ywk theta alpha gamma_c (f_ywk / gamma_s) V_rdc V_rd_max
  else .error .valueError

/-- codes/mc2010/_concrete_shear.py:74-206.  A missing strength, area, spacing or angle makes the arithmetic on
`None` a `TypeError` (with an unknown level: for a missing strength only). -/
def v_rd (lvl : ℤ) (with_shear : Bool) (fck z bw dg E_s As : ℝ) (l : Loads) (asw sw f_ywk theta : Option ℝ)
    (alpha : ℝ := 90) (gamma_c : ℝ := 1.5) (gamma_s : ℝ := 1.15) : Except PyErr ℝ :=
  match with_shear with
  | false => v_rdc lvl fck z bw dg E_s As l alpha gamma_c
  | true => match f_ywk with
    | none => .error .typeError
    | some f => match asw, sw, theta with
      | some a, some s, some t => v_rd_with lvl fck z bw dg E_s As l a s f t alpha gamma_c gamma_s
      | _, _, _ => if lvl = 1 ∨ lvl = 2 ∨ lvl = 3 then .error .typeError else .error .valueError

/-- codes/mc2010/_concrete_shear.py:662-697. -/
def v_rd_ct_approx1 (f_ctd i_c s_c b_w sigma_cp l_x l_bd0 : ℝ) : ℝ :=
  0.8 * (i_c * b_w / s_c) * (f_ctd ^ 2 + l_x / (1.2 * l_bd0) * sigma_cp * f_ctd) ^ (0.5 : ℝ)

/-- codes/mc2010/_concrete_shear.py:700-749. -/
def v_rd_ct_approx2 (f_ctd i_c l_x l_bd0 S_cy b_wy y y_c A_c A_cy y_pt f_p_lx f_p_lx_dx : ℝ) : ℝ :=
  i_c * b_wy / S_cy * ((f_ctd ^ 2 + l_x / (1.2 * l_bd0) * (1 / A_c * ((y_c - y) / i_c) * f_p_lx) * f_ctd) ^ (0.5 : ℝ)
    - 1 / b_wy * (A_cy / A_c - S_cy * (y_c - y_pt) / i_c) * f_p_lx_dx)

/-- codes/mc2010/_concrete_shear.py:589-659. -/
def v_rd_ct (lvl : ℤ) (f_ctd i_c s_c b_w sigma_cp l_x l_bd0 S_cy b_wy y y_c A_c A_cy y_pt f_p_lx f_p_lx_dx : ℝ) :
    Except PyErr ℝ :=
  if lvl = 1 then .ok (v_rd_ct_approx1 f_ctd i_c s_c b_w sigma_cp l_x l_bd0)
  else if lvl = 2 then .ok (v_rd_ct_approx2 f_ctd i_c l_x l_bd0 S_cy b_wy y y_c A_c A_cy y_pt f_p_lx f_p_lx_dx)
  else .error .valueError

/-! ### Torsion -/

/-- codes/mc2010/_concrete_torsion.py:8-21. -/
def v_ed_ti (t_ed a_k z_i : ℝ) : ℝ := t_ed * z_i / (2 * a_k)

/-- codes/mc2010/_concrete_torsion.py:60-76: no `else` branch, so another level leaves `k_epsilon` unbound. -/
def torsionK (lvl : ℤ) (theta z E_s As : ℝ) (l : Loads) : Except PyErr ℝ :=
  if lvl = 1 then .ok 0.55
  else if lvl = 2 then .ok (k_epsilon (epsilon_x E_s As z l) theta)
  else if lvl = 3 then .ok (k_epsilon (epsilon_x E_s As z l) (theta_min (epsilon_x E_s As z l)))
  else .error .unboundLocal

/-- codes/mc2010/_concrete_torsion.py:24-88. -/
def t_rd_max (f_ck d_k a_k theta : ℝ) (lvl : ℤ) (z E_s As : ℝ) (l : Loads) (gamma_c : ℝ := 1.5) : Except PyErr ℝ := do
  let k ← torsionK lvl theta z E_s As l
  pure (eta_fc f_ck * k * f_ck * (d_k / 8) * 2 * a_k * Real.sin (rad theta) * Real.cos (rad theta) / gamma_c)

open Classical in
/-- codes/mc2010/_concrete_torsion.py:130-164, the comparison. -/
def interaction (t v : ℝ) : Bool := decide (t ^ 2 + v ^ 2 ≤ 1)

/-- codes/mc2010/_concrete_torsion.py:91-164. -/
def t_rd (t_ed : ℝ) (lvl : ℤ) (fck bw theta z E_s As : ℝ) (l : Loads) (d_k a_k : ℝ) (alpha : ℝ := 90)
    (gamma_c : ℝ := 1.5) : Except PyErr Bool := do
  let m ← t_rd_max fck d_k a_k theta lvl z E_s As l gamma_c
  let a ← pyDiv t_ed m
  let v ← v_rd_max lvl fck bw theta z E_s As l alpha gamma_c
  let b ← pyDiv l.Ved v
  pure (interaction a b)

/-! ### Punching -/

/-- codes/mc2010/_concrete_punching.py:8-21. -/
def b_0 (v_ed v_prep_d_max : ℝ) : ℝ := v_ed / v_prep_d_max
/-- codes/mc2010/_concrete_punching.py:24-42. -/
def b_s (l_x l_y : ℝ) : ℝ := min (1.5 * (0.22 * l_x * (0.22 * l_y)) ^ (0.5 : ℝ)) (min l_x l_y)
/-- codes/mc2010/_concrete_punching.py:45-82. -/
def m_ed (v_ed e_u b_s : ℝ) (inner edge_par edge_per corner : Bool) : Except PyErr ℝ :=
  if inner then .ok (v_ed * (1 / 8 + |e_u| / (2 * b_s)))
  else if edge_par then .ok (max (v_ed * (1 / 8 + e_u / (2 * b_s))) (v_ed / 4))
  else if edge_per then .ok (v_ed * (1 / 8 + e_u / b_s))
  else if corner then .ok (max (v_ed * (1 / 8 + e_u / b_s)) (v_ed / 2))
  else .error .valueError
/-- codes/mc2010/_concrete_punching.py:85-100. -/
def b_sr (l_x l_y : ℝ) : ℝ := min l_x l_y
/-- codes/mc2010/_concrete_punching.py:131. -/
def rsBase (l_x l_y : ℝ) (x_direction : Bool) : ℝ := if x_direction then 0.22 * l_x else 0.22 * l_y
/-- codes/mc2010/_concrete_punching.py:103-139. -/
def r_s (l_x l_y : ℝ) (x_direction : Bool) (lvl3 : Bool := false) (edge : Bool := false) (b_sr : Option ℝ := none) :
    Except PyErr ℝ :=
  if edge && lvl3 then
    match b_sr with
    | none => .error .valueError
    | some b => .ok (max (rsBase l_x l_y x_direction) (0.67 * b))
  else .ok (rsBase l_x l_y x_direction)
/-- codes/mc2010/_concrete_punching.py:142-164. -/
def psi_punching_level_one (l_x l_y f_yd d_eff e_s : ℝ) : ℝ :=
  1.5 * max (0.22 * l_x) (0.22 * l_y) * f_yd / (d_eff * e_s)
/-- codes/mc2010/_concrete_punching.py:167-197. -/
def psi_punching_level_two (r_s f_yd d_eff e_s m_ed m_rd : ℝ) (m_Pd : ℝ := 0) : ℝ :=
  1.5 * r_s * f_yd / (d_eff * e_s) * ((m_ed - m_Pd) / (m_rd - m_Pd)) ^ (1.5 : ℝ)
/-- codes/mc2010/_concrete_punching.py:200-224. -/
def psi_punching_level_three (psi2 : ℝ) (uncracked moment_uncracked : Bool) : ℝ :=
  if uncracked && moment_uncracked then 1.2 / 1.5 * psi2 else psi2
/-- codes/mc2010/_concrete_punching.py:227-253. -/
def psi_punching (psi1 psi2 psi3 : ℝ) (lvl : ℝ) : Except PyErr ℝ :=
  open Classical in
  if lvl = 1 then .ok psi1 else if lvl = 2 then .ok psi2 else if lvl = 3 then .ok psi3 else .error .valueError
/-- codes/mc2010/_concrete_punching.py:256-269. -/
def k_dg (d_g : ℝ) : ℝ := max (32 / (16 + d_g)) 0.75
/-- codes/mc2010/_concrete_punching.py:272-289. -/
def k_psi (k_dg d_eff psi : ℝ) : ℝ := min (1 / (1.5 + 0.9 * k_dg * d_eff * psi)) 0.6
/-- codes/mc2010/_concrete_punching.py:292-313. -/
def v_rdc_punching (k_psi b_0 d_v f_ck : ℝ) (gamma_c : ℝ := 1.5) : ℝ := k_psi * b_0 * d_v * f_ck ^ (0.5 : ℝ) / gamma_c
/-- codes/mc2010/_concrete_punching.py:316-332. -/
def f_ywd (f_ywk gamma_s : ℝ) : ℝ := f_ywk / gamma_s
/-- codes/mc2010/_concrete_punching.py:335-365. -/
def sigma_swd (e_s psi alpha f_bd d_eff f_ywd phi_w : ℝ) : ℝ :=
  min (e_s * psi / 6 * (Real.sin (rad alpha) + Real.cos (rad alpha)) *
    (Real.sin (rad alpha) + f_bd * d_eff / (f_ywd * phi_w))) f_ywd
/-- codes/mc2010/_concrete_punching.py:368-401 (the strength and the load are used for a warning only). -/
def v_rds_punching (e_u b_u alpha sigma_swd a_sw : ℝ) : ℝ :=
  a_sw * (1 / (1 + e_u / b_u)) * sigma_swd * Real.sin (rad alpha)
/-- codes/mc2010/_concrete_punching.py:430-435. -/
def kSys (d_head stirrups_compression : Bool) : ℝ := if d_head then 2.8 else if stirrups_compression then 2.4 else 2
/-- codes/mc2010/_concrete_punching.py:404-439. -/
def v_rd_max_punching (d_v f_ck : ℝ) (d_head stirrups_compression : Bool) (b0_val k_psi_val : ℝ) (gamma_c : ℝ := 1.5) :
    ℝ :=
  min (kSys d_head stirrups_compression * k_psi_val * (b0_val * d_v * (f_ck ^ (0.5 : ℝ) / gamma_c)))
    (b0_val * d_v * (f_ck ^ (0.5 : ℝ) / gamma_c))
/-- codes/mc2010/_concrete_punching.py:442-455. -/
def v_rd_punching (v_rd_c v_rd_s v_rd_max : ℝ) : ℝ := min (v_rd_c + v_rd_s) v_rd_max

/-! ### Bond -/

/-- codes/mc2010/_interface_concrete_steel_rebar.py:16-25, 28-39, 42-51: a string among the valid ones up to case, or a
`ValueError`; `none` is any argument that is not a string. -/
def validate (valid : List (List Char)) (s : Option (List Char)) : Except PyErr (List Char) :=
  match s with
  | none => .error .valueError
  | some t => if pyLower t ∈ valid then .ok (pyLower t) else .error .valueError

def bondValues : List (List Char) := ["good".toList, "other".toList]
def confinementValues : List (List Char) := ["unconfined".toList, "stirrups".toList]
def failmodValues : List (List Char) := ["po".toList, "sp".toList]

/-- codes/mc2010/_interface_concrete_steel_rebar.py:69, 152, 172, 190: a dictionary with the two bond conditions. -/
def bondDict (good other : ℝ) (bond : Option (List Char)) : Except PyErr ℝ :=
  (validate bondValues bond).map fun b => if b = "good".toList then good else other

/-- codes/mc2010/_interface_concrete_steel_rebar.py:54-71. -/
def eta_2 (bond : Option (List Char)) : Except PyErr ℝ := bondDict 1 0.7 bond
/-- codes/mc2010/_interface_concrete_steel_rebar.py:74-106. -/
def tau_bu_split (eta_2 f_cm phi c_min c_max k_m K_tr : ℝ) : ℝ :=
  eta_2 * 6.5 * (f_cm / 25) ^ (0.25 : ℝ) * (25 / phi) ^ (0.2 : ℝ) *
    ((c_min / phi) ^ (0.33 : ℝ) * (c_max / c_min) ^ (0.1 : ℝ) + k_m * K_tr)
/-- codes/mc2010/_interface_concrete_steel_rebar.py:109-133. -/
def K_tr (n_t A_st n_b phi s_t : ℝ) : ℝ := min (n_t * A_st / (n_b * phi * s_t)) 0.05
/-- codes/mc2010/_interface_concrete_steel_rebar.py:136-154. -/
def tau_bmax (bond : Option (List Char)) (f_cm : ℝ) : Except PyErr ℝ :=
  bondDict (2.5 * f_cm ^ (0.5 : ℝ)) (1.25 * f_cm ^ (0.5 : ℝ)) bond
/-- codes/mc2010/_interface_concrete_steel_rebar.py:157-174. -/
def s_1 (bond : Option (List Char)) : Except PyErr ℝ := bondDict 1 1.8 bond
/-- codes/mc2010/_interface_concrete_steel_rebar.py:177-192. -/
def s_2 (bond : Option (List Char)) : Except PyErr ℝ := bondDict 2 3.6 bond
/-- codes/mc2010/_interface_concrete_steel_rebar.py:228-231. -/
def s3Split (c_clear s_1 : ℝ) (conf : List Char) : ℝ := if conf = "unconfined".toList then 1.2 * s_1 else 0.5 * c_clear
/-- codes/mc2010/_interface_concrete_steel_rebar.py:195-242. -/
def s_3 (failmod bond confinement : Option (List Char)) (c_clear s_1 : ℝ) : Except PyErr ℝ :=
  match validate failmodValues failmod with
  | .error e => .error e
  | .ok fm => match validate bondValues bond with
    | .error e => .error e
    | .ok _ => if fm = "po".toList then .ok c_clear
      else (validate confinementValues confinement).map (s3Split c_clear s_1)
/-- codes/mc2010/_interface_concrete_steel_rebar.py:245-263. -/
def s_tau_bu_split (tau_bmax tau_bu_split alpha s_1 : ℝ) : ℝ := (tau_bu_split / tau_bmax) ^ (1 / alpha) * s_1
/-- codes/mc2010/_interface_concrete_steel_rebar.py:266-324. -/
def f_stm (f_cm phi l_b c_min c_max k_m K_tr : ℝ) : ℝ :=
  54 * (f_cm / 25) ^ (0.25 : ℝ) * (25 / phi) ^ (0.2 : ℝ) * (l_b / phi) ^ (0.55 : ℝ) *
    ((c_min / phi) ^ (0.25 : ℝ) * (c_max / c_min) ^ (0.1 : ℝ) + k_m * K_tr)
/-- codes/mc2010/_interface_concrete_steel_rebar.py:327-348. -/
def tau_yield (f_y l_b phi : ℝ) : ℝ := f_y / (4 * l_b / phi)

/-! ### Interfaces between concretes cast at different times -/

/-- codes/mc2010/_concrete_interface_different_casting_times.py:6-21. -/
def tau_edi (beta v_ed z b_i : ℝ) : ℝ := beta * v_ed / (z * b_i)
/-- codes/mc2010/_concrete_interface_different_casting_times.py:51, 97. -/
def nuFc (f_ck : ℝ) : ℝ := min (0.55 * (30 / f_ck) ^ ((1 : ℝ) / 3)) 0.55
/-- codes/mc2010/_concrete_interface_different_casting_times.py:24-52. -/
def tau_rdi_without_reinforcement (c_a f_ctd mu sigma_n f_ck f_cd : ℝ) : ℝ :=
  min (c_a * f_ctd + mu * sigma_n) (0.5 * nuFc f_ck * f_cd)
/-- codes/mc2010/_concrete_interface_different_casting_times.py:55-104. -/
def tau_rdi_with_reinforcement (c_r k1 k2 mu ro sigma_n alpha beta_c f_ck f_yd f_cd : ℝ) : ℝ :=
  min (c_r * f_ck ^ ((1 : ℝ) / 3) + mu * sigma_n + k1 * ro * f_yd * (mu * Real.sin (rad alpha) + Real.cos (rad alpha)) +
    k2 * ro * (f_yd * f_cd) ^ (0.5 : ℝ)) (beta_c * nuFc f_ck * f_cd)

end

end SC.MC2010
