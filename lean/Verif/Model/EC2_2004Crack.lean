import Verif.Model.Str

/-! # EC2 2004 section 7.3: crack control (codes/ec2_2004/_section_7_3_crack_control.py)

Numbers are reals; a division by zero raises `ZeroDivisionError`; strings are lists of characters. -/

set_option autoImplicit false

namespace SC

open Classical in
/-- `if bad: raise ValueError(...)`. -/
noncomputable def raiseIf (bad : Prop) : Except PyErr Unit := if bad then .error .valueError else .ok ()

theorem raiseIf_ok {p : Prop} {u : Unit} : raiseIf p = .ok u ↔ ¬ p := by
  unfold raiseIf; split_ifs with h <;> simp [h]

theorem raiseIf_error {p : Prop} {e : PyErr} : raiseIf p = .error e ↔ p ∧ e = .valueError := by
  unfold raiseIf; split_ifs with h <;> simp [h, eq_comm]

end SC

namespace SC.EC2_2004

noncomputable section

/-- The members of the tuples of exposure classes used in `w_max`. -/
def classesLow : List (List Char) := [['X', '0'], ['X', 'C', '1']]
def classesMid : List (List Char) := [['X', 'C', '2'], ['X', 'C', '3'], ['X', 'C', '4']]
def classesHigh : List (List Char) :=
  [['X', 'D', '1'], ['X', 'D', '2'], ['X', 'S', '1'], ['X', 'S', '2'], ['X', 'S', '3']]

/-- codes/ec2_2004/_section_7_3_crack_control.py:12-64. -/
def w_max (exposure_class load_combination : List Char) : Except PyErr ℝ :=
  let lc := pyStrip (pyLower load_combination)
  let ec := pyStrip (pyUpper exposure_class)
  if lc = ['f'] ∧ ec ∈ classesLow then .ok 0.2
  else if lc = ['f'] ∧ ec ∈ classesMid then .ok 0.2
  else if lc = ['q', 'p'] then
    if ec ∈ classesLow then .ok 0.4
    else if ec ∈ classesMid ++ classesHigh then .ok 0.3
    else .error .valueError
  else .error .valueError

/-- codes/ec2_2004/_section_7_3_crack_control.py:67-118. -/
def As_min (A_ct sigma_s fct_eff k kc : ℝ) : Except PyErr ℝ := do
  raiseIf (A_ct ≤ 0)
  raiseIf (sigma_s < 0)
  raiseIf (k < 0.65 ∨ k > 1)
  raiseIf (kc > 1 ∨ kc < 0)
  pyDiv (kc * k * |fct_eff| * A_ct) sigma_s

open Classical in
/-- codes/ec2_2004/_section_7_3_crack_control.py:121-146; `interp1d` is the chord between its two points. -/
def k (h : ℝ) : Except PyErr ℝ :=
  if h < 0 then .error .valueError
  else if h ≤ 300 then .ok 1
  else if h < 800 then .ok ((0.65 - 1) / (800 - 300) * (h - 300) + 1)
  else .ok 0.65

/-- codes/ec2_2004/_section_7_3_crack_control.py:149-159. -/
def kc_tension : ℝ := 1

open Classical in
/-- codes/ec2_2004/_section_7_3_crack_control.py:194-195. -/
def kcK1 (h N_ed : ℝ) : Except PyErr ℝ := if 0 ≤ N_ed then .ok 1.5 else pyDiv (2 * min h 1000 / 3) h

/-- codes/ec2_2004/_section_7_3_crack_control.py:162-198. -/
def kc_rect_area (h b fct_eff N_ed : ℝ) : Except PyErr ℝ := do
  raiseIf (h < 0)
  raiseIf (b < 0)
  let h_s := min h 1000
  let k1 ← kcK1 h N_ed
  let s0 ← pyDiv (N_ed * 1000) b
  let s ← pyDiv s0 h
  let h_ratio ← pyDiv h h_s
  let a ← pyDiv s k1
  let a ← pyDiv a h_ratio
  let a ← pyDiv a fct_eff
  return min (max (0.4 * (1 - a)) 0) 1

/-- codes/ec2_2004/_section_7_3_crack_control.py:201-228. -/
def kc_flanges_area (f_cr A_ct fct_eff : ℝ) : Except PyErr ℝ := do
  let a ← pyDiv (0.9 * |f_cr| * 1000) A_ct
  let a ← pyDiv a fct_eff
  return max a 0.5

open Classical in
/-- codes/ec2_2004/_section_7_3_crack_control.py:231-261. -/
def xi1 (xi phi_p phi_s : ℝ) : Except PyErr ℝ := do
  raiseIf (phi_p ≤ 0)
  raiseIf (phi_s < 0)
  raiseIf (xi < 0.15)
  raiseIf (xi > 0.8)
  return if phi_s > 0 then (xi * phi_s / phi_p) ^ (0.5 : ℝ) else xi ^ (0.5 : ℝ)

/-- codes/ec2_2004/_section_7_3_crack_control.py:264-294. -/
def hc_eff (h d x : ℝ) : Except PyErr ℝ := do
  raiseIf (h < 0)
  raiseIf (d < 0)
  raiseIf (x < 0)
  raiseIf (d > h)
  raiseIf (x > h)
  return min (min (2.5 * (h - d)) ((h - x) / 3)) (h / 2)

/-- codes/ec2_2004/_section_7_3_crack_control.py:297-376. -/
def As_min_p (A_ct sigma_s fct_eff k kc Ap phi_s phi_p xi delta_s : ℝ) : Except PyErr ℝ := do
  raiseIf (Ap < 0)
  raiseIf (delta_s < 0)
  raiseIf (A_ct ≤ 0)
  raiseIf (sigma_s < 0)
  raiseIf (k < 0.65 ∨ k > 1)
  raiseIf (kc > 1 ∨ kc < 0)
  let e1 ← xi1 xi phi_p phi_s
  pyDiv (kc * k * |fct_eff| * A_ct - e1 * Ap * delta_s) sigma_s

/-- codes/ec2_2004/_section_7_3_crack_control.py:444-492: Table 7.2N and 7.3N; `none` where the tables are empty;
the nodes are ordered by stress, then by crack width (line 494). -/
def tablePhi : List ((ℝ × ℝ) × Option ℝ) :=
  [((160, 0.4), some 40), ((160, 0.3), some 32), ((160, 0.2), some 25),
   ((200, 0.4), some 32), ((200, 0.3), some 25), ((200, 0.2), some 16),
   ((240, 0.4), some 20), ((240, 0.3), some 16), ((240, 0.2), some 12),
   ((280, 0.4), some 16), ((280, 0.3), some 12), ((280, 0.2), some 8),
   ((320, 0.4), some 12), ((320, 0.3), some 10), ((320, 0.2), some 6),
   ((360, 0.4), some 10), ((360, 0.3), some 8), ((360, 0.2), some 5),
   ((400, 0.4), some 8), ((400, 0.3), some 6), ((400, 0.2), some 4),
   ((450, 0.4), some 6), ((450, 0.3), some 5), ((450, 0.2), none)]
def tableSpa : List ((ℝ × ℝ) × Option ℝ) :=
  [((160, 0.4), some 300), ((160, 0.3), some 300), ((160, 0.2), some 200),
   ((200, 0.4), some 300), ((200, 0.3), some 250), ((200, 0.2), some 150),
   ((240, 0.4), some 250), ((240, 0.3), some 200), ((240, 0.2), some 100),
   ((280, 0.4), some 200), ((280, 0.3), some 150), ((280, 0.2), some 50),
   ((320, 0.4), some 150), ((320, 0.3), some 100), ((320, 0.2), none),
   ((360, 0.4), some 100), ((360, 0.3), some 50), ((360, 0.2), none)]

open Classical in
/-- codes/ec2_2004/_section_7_3_crack_control.py:379-513. `scipy.interpolate.griddata` (piecewise linear on a
triangulation of the nodes) is the parameter `grid`; it returns `none` for `nan`. -/
def As_min_2 (grid : List ((ℝ × ℝ) × Option ℝ) → ℝ × ℝ → Option ℝ) (wk sigma_s fct_eff h_cr h d : ℝ)
    (delta_s : ℝ := 0) (kc : Option ℝ := none) : Except PyErr (ℝ × ℝ) := do
  raiseIf (wk < 0)
  raiseIf (fct_eff < 0)
  raiseIf (h_cr < 0)
  raiseIf (h < 0)
  raiseIf (d < 0)
  raiseIf (∃ c ∈ kc, c < 0 ∨ c > 1)
  if sigma_s - delta_s ≤ 0 then return (0, 0)
  let fac ← match kc with
    | some c => pyDiv (c * h_cr) (2 * (h - d))
    | none => pyDiv h_cr (8 * (h - d))
  match grid tablePhi (sigma_s - delta_s, wk), grid tableSpa (sigma_s - delta_s, wk) with
  | some phi_star, some spa => return (phi_star * (fct_eff / 2.9) * fac, spa)
  | _, _ => .error .valueError

/-- codes/ec2_2004/_section_7_3_crack_control.py:516-536. -/
def alpha_e (Es Ecm : ℝ) : Except PyErr ℝ := do
  raiseIf (Es < 0)
  raiseIf (Ecm < 0)
  pyDiv Es Ecm

/-- codes/ec2_2004/_section_7_3_crack_control.py:539-566. -/
def rho_p_eff (As xi1 Ap Ac_eff : ℝ) : Except PyErr ℝ := do
  raiseIf (As < 0)
  raiseIf (xi1 < 0)
  raiseIf (Ap < 0)
  raiseIf (Ac_eff < 0)
  pyDiv (As + xi1 ^ 2 * Ap) Ac_eff

/-- codes/ec2_2004/_section_7_3_crack_control.py:569-592, string arguments. -/
def kt (load_type : List Char) : Except PyErr ℝ :=
  let lt := pyStrip (pyLower load_type)
  if lt = ['s', 'h', 'o', 'r', 't'] then .ok 0.6
  else if lt = ['l', 'o', 'n', 'g'] then .ok 0.4
  else .error .valueError

/-- codes/ec2_2004/_section_7_3_crack_control.py:595-655. -/
def eps_sm_eps_cm (sigma_s alpha_e rho_p_eff kt fct_eff Es : ℝ) : Except PyErr ℝ := do
  raiseIf (sigma_s < 0)
  raiseIf (alpha_e < 0)
  raiseIf (rho_p_eff < 0)
  raiseIf (fct_eff < 0)
  raiseIf (Es < 0)
  raiseIf (¬ (kt = 0.6 ∨ kt = 0.4))
  let min_val ← pyDiv (0.6 * sigma_s) Es
  let b ← pyDiv (kt * fct_eff) rho_p_eff
  let c ← pyDiv (sigma_s - b * (1 + alpha_e * rho_p_eff)) Es
  return max c min_val

/-- codes/ec2_2004/_section_7_3_crack_control.py:658-680. -/
def w_spacing (c phi : ℝ) : Except PyErr ℝ := do
  raiseIf (c < 0)
  raiseIf (phi < 0)
  return 5 * (c + phi / 2)

/-- codes/ec2_2004/_section_7_3_crack_control.py:683-718, integer `n1`, `n2`. -/
def phi_eq (n1 n2 : ℤ) (phi1 phi2 : ℝ) : Except PyErr ℝ := do
  raiseIf (n1 < 0)
  raiseIf (n2 < 0)
  raiseIf (phi1 < 0)
  raiseIf (phi2 < 0)
  pyDiv (n1 * phi1 ^ 2 + n2 * phi2 ^ 2) (n1 * phi1 + n2 * phi2)

/-- codes/ec2_2004/_section_7_3_crack_control.py:721-747, string arguments. -/
def k1 (bond_type : List Char) : Except PyErr ℝ :=
  let bt := pyStrip (pyLower bond_type)
  if bt = ['b', 'o', 'n', 'd'] then .ok 0.8
  else if bt = ['p', 'l', 'a', 'i', 'n'] then .ok 1.6
  else .error .valueError

/-- codes/ec2_2004/_section_7_3_crack_control.py:750-770. -/
def k2 (eps_r : ℝ) : Except PyErr ℝ := do
  raiseIf (eps_r < 0 ∨ eps_r > 1)
  return (1 + eps_r) / 2

/-- codes/ec2_2004/_section_7_3_crack_control.py:794-855; `k3`, `k4` (773-791) default to 3.4 and 0.425. -/
def sr_max_close (c phi rho_p_eff k1 k2 : ℝ) (k3 k4 : Option ℝ := none) : Except PyErr ℝ := do
  let k3 := k3.getD 3.4
  let k4 := k4.getD 0.425
  raiseIf (c < 0)
  raiseIf (phi < 0)
  raiseIf (rho_p_eff < 0)
  raiseIf (k3 < 0)
  raiseIf (k4 < 0)
  raiseIf (¬ (k1 = 0.8 ∨ k1 = 1.6))
  raiseIf (k2 < 0.5 ∨ k2 > 1)
  let q ← pyDiv (k1 * k2 * k4 * phi) rho_p_eff
  return k3 * c + q

/-- codes/ec2_2004/_section_7_3_crack_control.py:858-883. -/
def sr_max_far (h x : ℝ) : Except PyErr ℝ := do
  raiseIf (x < 0)
  raiseIf (h < 0)
  raiseIf (x > h)
  return 1.3 * (h - x)

/-- codes/ec2_2004/_section_7_3_crack_control.py:886-913. -/
def sr_max_theta (sr_max_y sr_max_z theta : ℝ) : Except PyErr ℝ := do
  raiseIf (sr_max_y < 0)
  raiseIf (sr_max_z < 0)
  let a ← pyDiv (Real.cos theta) sr_max_y
  let b ← pyDiv (Real.sin theta) sr_max_z
  pyDiv 1 (a + b)

/-- codes/ec2_2004/_section_7_3_crack_control.py:916-941. -/
def wk (sr_max eps_sm_eps_cm : ℝ) : Except PyErr ℝ := do
  raiseIf (sr_max < 0)
  raiseIf (eps_sm_eps_cm < 0)
  return sr_max * eps_sm_eps_cm

end

end SC.EC2_2004
