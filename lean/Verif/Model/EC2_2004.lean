import Verif.Model.MC2010
import Mathlib.Analysis.SpecialFunctions.Trigonometric.Basic
import Mathlib.Algebra.Order.Round

/-! # structuralcodes/codes/ec2_2004

Conventions as in Verif/Model/MC2010.lean. -/

set_option autoImplicit false

namespace SC.EC2_2004

noncomputable section

/-! ### _concrete_material_properties.py -/

/-- codes/ec2_2004/_concrete_material_properties.py:20-36. -/
def fcm (fck : ℝ) (delta_f : ℝ := 8) : ℝ := MC2010.fcm |fck| |delta_f|
/-- codes/ec2_2004/_concrete_material_properties.py:39-51. -/
def fctm (fck : ℝ) : ℝ := MC2010.fctm |fck|
/-- codes/ec2_2004/_concrete_material_properties.py:54-65. -/
def fctk_5 (fctm : ℝ) : ℝ := MC2010.fctkmin |fctm|
/-- codes/ec2_2004/_concrete_material_properties.py:68-79. -/
def fctk_95 (fctm : ℝ) : ℝ := MC2010.fctkmax |fctm|
/-- codes/ec2_2004/_concrete_material_properties.py:82-93. -/
def Ecm (fcm : ℝ) : ℝ := 22000 * (|fcm| / 10) ^ (0.3 : ℝ)
/-- codes/ec2_2004/_concrete_material_properties.py:96-109. -/
def eps_c1 (fcm : ℝ) : ℝ := min (0.7 * |fcm| ^ (0.31 : ℝ)) 2.8 / 1000
open Classical in
/-- codes/ec2_2004/_concrete_material_properties.py:112-129. -/
def eps_cu1 (fck : ℝ) : ℝ :=
  if |fck| < 50 then 3.5 / 1000 else (2.8 + 27 * ((98 - fcm |fck|) / 100) ^ 4) / 1000
/-- codes/ec2_2004/_concrete_material_properties.py:132-146. -/
def k_sargin (Ecm fcm eps_c1 : ℝ) : Except PyErr ℝ := pyDiv (1.05 * Ecm * |eps_c1|) fcm
open Classical in
/-- codes/ec2_2004/_concrete_material_properties.py:149-166. -/
def eps_c2 (fck : ℝ) : ℝ :=
  if |fck| ≤ 50 then 2 / 1000 else (2 + 0.085 * (|fck| - 50) ^ (0.53 : ℝ)) / 1000
open Classical in
/-- codes/ec2_2004/_concrete_material_properties.py:169-186. -/
def eps_cu2 (fck : ℝ) : ℝ :=
  if |fck| ≤ 50 then 3.5 / 1000 else (2.6 + 35 * ((90 - |fck|) / 100) ^ 4) / 1000
open Classical in
/-- codes/ec2_2004/_concrete_material_properties.py:189-202. -/
def n_parabolic_rectangular (fck : ℝ) : ℝ :=
  if |fck| ≤ 50 then 2 else 1.4 + 23.4 * ((90 - |fck|) / 100) ^ 4
open Classical in
/-- codes/ec2_2004/_concrete_material_properties.py:205-219. -/
def eps_c3 (fck : ℝ) : ℝ :=
  if |fck| ≤ 50 then 1.75 / 1000 else (1.75 + 0.55 * (|fck| - 50) / 40) / 1000
/-- codes/ec2_2004/_concrete_material_properties.py:222-234. -/
def eps_cu3 (fck : ℝ) : ℝ := eps_cu2 fck
/-- codes/ec2_2004/_concrete_material_properties.py:237-251. -/
def fcd (fck alpha_cc gamma_c : ℝ) : Except PyErr ℝ := pyDiv (|alpha_cc| * |fck|) |gamma_c|
/-- codes/ec2_2004/_concrete_material_properties.py:254-269, `t > 0`. -/
def beta_cc (t s : ℝ) : ℝ := Real.exp (s * (1 - Real.sqrt (28 / t)))
open Classical in
/-- codes/ec2_2004/_concrete_material_properties.py:287-291, scalar. -/
def beta_ct (t s : ℝ) : ℝ := if t < 28 then beta_cc t s else beta_cc t s ^ ((2 : ℝ) / 3)
/-- codes/ec2_2004/_concrete_material_properties.py:292-295, array. -/
def beta_ct_arr {ι : Type*} (t : ι → ℝ) (s : ℝ) : ι → ℝ :=
  let beta := fun i => beta_cc (t i) s
  maskSet (fun i => t i ≥ 28) (fun i => beta i ^ ((2 : ℝ) / 3)) beta
/-- codes/ec2_2004/_concrete_material_properties.py:298-313. -/
def beta_E (t s : ℝ) : ℝ := beta_cc t s ^ (0.3 : ℝ)

/-- codes/ec2_2004/_concrete_material_properties.py:13-17 `S_TIME_DEVELOPMENT_DICT`. -/
def sDict : List Char → Option ℝ
  | ['R'] => some 0.20
  | ['N'] => some 0.25
  | ['S'] => some 0.38
  | _ => none

/-- codes/ec2_2004/_concrete_material_properties.py:316-344: `None` becomes the empty string. -/
def s_time_development (cls : Option (List Char)) : Except PyErr ℝ :=
  match sDict (match cls with | some c => pyStrip (pyUpper c) | none => []) with
  | none => .error .valueError
  | some s => .ok s

/-- codes/ec2_2004/_concrete_material_properties.py:347-362. -/
def fcm_time (fcm beta_cc : ℝ) : ℝ := fcm * beta_cc
/-- codes/ec2_2004/_concrete_material_properties.py:365-384. -/
def fctm_time (fctm beta_cc alpha : ℝ) : ℝ := beta_cc ^ alpha * fctm
/-- codes/ec2_2004/_concrete_material_properties.py:387-406. -/
def Ecm_time (fcm fcm_time Ecm : ℝ) : ℝ := (fcm_time / fcm) ^ (0.3 : ℝ) * Ecm

/-! ### _reinforcement_material_properties.py -/

open Classical in
/-- codes/ec2_2004/_reinforcement_material_properties.py:21-41. -/
def fyd (fyk gamma_s : ℝ) : Except PyErr ℝ :=
  if fyk < 0 then .error .valueError
  else if gamma_s < 1 then .error .valueError
  else .ok (fyk / gamma_s)

open Classical in
/-- codes/ec2_2004/_reinforcement_material_properties.py:44-69. -/
def epsud (epsuk : ℝ) (gamma_eps : ℝ := 0.9) : Except PyErr ℝ :=
  if epsuk < 0 then .error .valueError
  else if gamma_eps > 1 then .error .valueError
  else .ok (epsuk * gamma_eps)

/-- codes/ec2_2004/_reinforcement_material_properties.py:5-18 `DUCTILITY_CLASSES`. -/
def ductilityClass : List Char → Option (ℝ × ℝ)
  | ['A'] => some (2.5e-2, 1.05)
  | ['B'] => some (5.0e-2, 1.08)
  | ['C'] => some (7.5e-2, 1.15)
  | _ => none

/-- codes/ec2_2004/_reinforcement_material_properties.py:72-104. -/
def reinforcement_duct_props (fyk : ℝ) (cls : List Char) : Except PyErr (ℝ × ℝ) :=
  match ductilityClass (pyUpper cls) with
  | none => .error .valueError
  | some (e, k) => .ok (e, k * fyk)

/-! ### _concrete_creep_and_shrinkage.py -/

/-- codes/ec2_2004/_concrete_creep_and_shrinkage.py:20-37. -/
def eps_cs (eps_cd eps_ca : ℝ) : ℝ := eps_cd + eps_ca
/-- codes/ec2_2004/_concrete_creep_and_shrinkage.py:40-62. -/
def eps_cd (beta_ds k_h eps_cd_0 : ℝ) : ℝ := beta_ds * k_h * eps_cd_0
/-- codes/ec2_2004/_concrete_creep_and_shrinkage.py:65-85, scalar. -/
def beta_ds (t t_s h_0 : ℝ) : ℝ := max (t - t_s) 0 / (max (t - t_s) 0 + 0.04 * h_0 ^ ((3 : ℝ) / 2))
/-- codes/ec2_2004/_concrete_creep_and_shrinkage.py:79-85, array. -/
def beta_ds_arr {ι : Type*} (t : ι → ℝ) (t_s h_0 : ℝ) : ι → ℝ :=
  let td := fun i => t i - t_s
  let td := maskSet (fun i => td i < 0) (fun _ => 0) td
  fun i => td i / (td i + 0.04 * h_0 ^ ((3 : ℝ) / 2))
/-- codes/ec2_2004/_concrete_creep_and_shrinkage.py:88-99. -/
def k_h (h_0 : ℝ) : ℝ := interp h_0 [(100, 1), (200, 0.85), (300, 0.75), (500, 0.7)] 1 0.7
/-- codes/ec2_2004/_concrete_creep_and_shrinkage.py:102-133. -/
def eps_cd_0 (alpha_ds1 alpha_ds2 fcm beta_RH : ℝ) (fcm_0 : ℝ := 10) : ℝ :=
  0.85 * ((220 + 110 * alpha_ds1) * Real.exp (-alpha_ds2 * fcm / fcm_0)) * 1e-6 * beta_RH

/-- codes/ec2_2004/_concrete_creep_and_shrinkage.py:13-17 `ALPHA_DS_DICT`. -/
def alphaDsDict : List Char → Option (ℝ × ℝ)
  | ['R'] => some (6, 0.11)
  | ['N'] => some (4, 0.12)
  | ['S'] => some (3, 0.13)
  | _ => none
/-- codes/ec2_2004/_concrete_creep_and_shrinkage.py:172-183. -/
def getAlphaDs (cls : List Char) : Except PyErr (ℝ × ℝ) :=
  match alphaDsDict (pyStrip (pyUpper cls)) with
  | none => .error .valueError
  | some p => .ok p
/-- codes/ec2_2004/_concrete_creep_and_shrinkage.py:136-151. -/
def alpha_ds1 (cls : List Char) : Except PyErr ℝ := (getAlphaDs cls).map Prod.fst
/-- codes/ec2_2004/_concrete_creep_and_shrinkage.py:154-169. -/
def alpha_ds2 (cls : List Char) : Except PyErr ℝ := (getAlphaDs cls).map Prod.snd

/-- codes/ec2_2004/_concrete_creep_and_shrinkage.py:186-200. -/
def beta_RH (RH : ℝ) (RH_0 : ℝ := 100) : ℝ := 1.55 * (1 - (RH / RH_0) ^ 3)
/-- codes/ec2_2004/_concrete_creep_and_shrinkage.py:203-220. -/
def eps_ca (beta_as eps_ca_inf : ℝ) : ℝ := beta_as * eps_ca_inf
/-- codes/ec2_2004/_concrete_creep_and_shrinkage.py:223-234. -/
def eps_ca_inf (fck : ℝ) : ℝ := 2.5 * (fck - 10) * 1e-6
/-- codes/ec2_2004/_concrete_creep_and_shrinkage.py:237-251. -/
def beta_as (t : ℝ) : ℝ := 1 - Real.exp (-0.2 * t ^ (0.5 : ℝ))
/-- codes/ec2_2004/_concrete_creep_and_shrinkage.py:254-269. -/
def phi (phi_0 beta_c : ℝ) : ℝ := phi_0 * beta_c
/-- codes/ec2_2004/_concrete_creep_and_shrinkage.py:272-286. -/
def phi_0 (phi_RH beta_fcm beta_t0 : ℝ) : ℝ := phi_RH * beta_fcm * beta_t0
open Classical in
/-- codes/ec2_2004/_concrete_creep_and_shrinkage.py:289-312. -/
def phi_RH (h_0 fcm RH alpha_1 alpha_2 : ℝ) : ℝ :=
  if fcm ≤ 35 then 1 + (1 - RH / 100) / (0.1 * h_0 ^ ((1 : ℝ) / 3))
  else (1 + (1 - RH / 100) / (0.1 * h_0 ^ ((1 : ℝ) / 3)) * alpha_1) * alpha_2
/-- codes/ec2_2004/_concrete_creep_and_shrinkage.py:315-327. -/
def beta_fcm (fcm : ℝ) : ℝ := 16.8 / fcm ^ (0.5 : ℝ)
/-- codes/ec2_2004/_concrete_creep_and_shrinkage.py:330-342. -/
def beta_t0 (t0 : ℝ) : ℝ := 1 / (0.1 + t0 ^ (0.20 : ℝ))
/-- codes/ec2_2004/_concrete_creep_and_shrinkage.py:345-362. -/
def h_0 (Ac u : ℝ) : ℝ := 2 * Ac / u
/-- codes/ec2_2004/_concrete_creep_and_shrinkage.py:365-385, scalar. -/
def beta_c (t0 t beta_H : ℝ) : ℝ := (max (t - t0) 0 / (beta_H + max (t - t0) 0)) ^ (0.3 : ℝ)
/-- codes/ec2_2004/_concrete_creep_and_shrinkage.py:379-385, array. -/
def beta_c_arr {ι : Type*} (t0 : ℝ) (t : ι → ℝ) (beta_H : ℝ) : ι → ℝ :=
  let tl := fun i => t i - t0
  let tl := maskSet (fun i => tl i < 0) (fun _ => 0) tl
  fun i => (tl i / (beta_H + tl i)) ^ (0.3 : ℝ)
open Classical in
/-- codes/ec2_2004/_concrete_creep_and_shrinkage.py:388-413. -/
def beta_H (h_0 fcm RH alpha_3 : ℝ) : ℝ :=
  if fcm ≤ 35 then min (1.5 * (1 + (0.012 * RH) ^ 18) * h_0 + 250) 1500
  else min (1.5 * (1 + (0.012 * RH) ^ 18) * h_0 + 250 * alpha_3) (1500 * alpha_3)
/-- codes/ec2_2004/_concrete_creep_and_shrinkage.py:416-424. -/
def alpha_1 (fcm : ℝ) : ℝ := (35 / fcm) ^ (0.7 : ℝ)
/-- codes/ec2_2004/_concrete_creep_and_shrinkage.py:427-435. -/
def alpha_2 (fcm : ℝ) : ℝ := (35 / fcm) ^ (0.2 : ℝ)
/-- codes/ec2_2004/_concrete_creep_and_shrinkage.py:438-446. -/
def alpha_3 (fcm : ℝ) : ℝ := (35 / fcm) ^ (0.5 : ℝ)
/-- codes/ec2_2004/_concrete_creep_and_shrinkage.py:449-461. -/
def t0_adj (t0 alpha_cement : ℝ) : ℝ := max (t0 * (9 / (2 + t0 ^ (1.2 : ℝ)) + 1) ^ alpha_cement) 0.5
/-- codes/ec2_2004/_concrete_creep_and_shrinkage.py:464-505, scalars. -/
def t_T (T dt : ℝ) : ℝ := Real.exp (13.65 - 4000 / (273 + T)) * dt
/-- codes/ec2_2004/_concrete_creep_and_shrinkage.py:497-504, arrays. -/
def t_T_arr (T dt : List ℝ) : Except PyErr ℝ :=
  if T.length ≠ dt.length then .error .valueError
  else .ok ((T.zip dt).map fun p => Real.exp (13.65 - 4000 / (273 + p.1)) * p.2).sum

/-- codes/ec2_2004/_concrete_creep_and_shrinkage.py:12 `ALPHA_CEMENT_DICT`. -/
def alphaCementDict : List Char → Option ℝ
  | ['R'] => some 1
  | ['N'] => some 0
  | ['S'] => some (-1)
  | _ => none
/-- codes/ec2_2004/_concrete_creep_and_shrinkage.py:508-529: `upper` without `strip`. -/
def alpha_cement (cls : List Char) : Except PyErr ℝ :=
  match alphaCementDict (pyUpper cls) with
  | none => .error .valueError
  | some a => .ok a

/-! ### shear.py -/

/-- codes/ec2_2004/shear.py:10-22, `d > 0`. -/
def kShear (d : ℝ) : ℝ := min (1 + Real.sqrt (200 / d)) 2
/-- codes/ec2_2004/shear.py:26-42, `bw d ≠ 0`. -/
def rho_L (Asl bw d : ℝ) : ℝ := min (Asl / (bw * d)) 0.02
/-- codes/ec2_2004/shear.py:46-61, `Ac ≠ 0`. -/
def sigma_cp (NEd Ac fcd : ℝ) : ℝ := min (NEd / Ac) (0.2 * fcd)
/-- codes/ec2_2004/shear.py:65-82. -/
def alpha_l (L_x L_pt2 : ℝ) : ℝ := min (L_x / L_pt2) 1

/-- `math.radians`. -/
def radians (x : ℝ) : ℝ := x * Real.pi / 180

/-- `1 / math.tan(x)`: an angle with sine 0 makes the tangent zero (in exact arithmetic). -/
def pyCot (x : ℝ) : Except PyErr ℝ :=
  open Classical in if Real.sin x = 0 then .error .zeroDivision else .ok (Real.cos x / Real.sin x)

/-- Python `round(x, 2)`; ties are rounded up (Python: to even, of the binary value). -/
def round2 (x : ℝ) : ℝ := (round (100 * x) : ℝ) / 100

open Classical in
/-- codes/ec2_2004/shear.py:86-119 `_theta`. -/
def thetaCheck (theta : ℝ) (cot_min : ℝ := 1) (cot_max : ℝ := 2.5) : Except PyErr Unit :=
  match pyCot (radians theta) with
  | .error e => .error e
  | .ok c => if round2 c < cot_min ∨ round2 c > cot_max then .error .valueError else .ok ()

open Classical in
/-- codes/ec2_2004/shear.py:123-158, `Ac ≠ 0`, `fcd ≠ 0`. -/
def alpha_cw (Ned Ac fcd : ℝ) : Except PyErr ℝ :=
  if Ned / Ac ≤ 0 then .ok 1
  else if Ned / Ac ≤ 0.25 * fcd then .ok (1 + Ned / Ac / fcd)
  else if Ned / Ac ≤ 0.5 * fcd then .ok 1.25
  else if Ned / Ac < fcd then .ok (2.5 * (1 - Ned / Ac / fcd))
  else .error .valueError

/-- codes/ec2_2004/shear.py:219-231. -/
def vmin (fck d : ℝ) : ℝ := 0.035 * kShear d ^ ((3 : ℝ) / 2) * fck ^ ((1 : ℝ) / 2)

/-- codes/ec2_2004/shear.py:165-215. -/
def VRdc (fck d Asl bw NEd Ac fcd : ℝ) (k1 : ℝ := 0.15) (gamma_c : ℝ := 1.5) (CRdc : Option ℝ := none) : ℝ :=
  let CRdc := orDefault CRdc (0.18 / gamma_c)
  max (max (CRdc * kShear d * (100 * rho_L Asl bw d * fck) ^ ((1 : ℝ) / 3) + k1 * sigma_cp NEd Ac fcd)
    (vmin fck d + k1 * sigma_cp NEd Ac fcd) * bw * d) 0

/-- codes/ec2_2004/shear.py:235-287. -/
def VRdc_prin_stress (Iy bw S fctd NEd Ac : ℝ) (L_x L_pt2 : Option ℝ) : ℝ :=
  let sigma := NEd / Ac
  let alpha_L := match L_x, L_pt2 with
    | some x, some y => alpha_l x y
    | _, _ => 1
  Iy * bw / S * Real.sqrt (fctd ^ 2 + alpha_L * sigma * fctd)

/-- codes/ec2_2004/shear.py:317-330. -/
def v (fck : ℝ) : ℝ := 0.6 * (1 - fck / 250)
open Classical in
/-- codes/ec2_2004/shear.py:334-347. -/
def v1 (fck : ℝ) : ℝ := if fck ≤ 60 then 0.6 else max (0.9 - fck / 200) 0.5
/-- codes/ec2_2004/shear.py:291-313. -/
def VEdmax_unreinf (bw d fck fcd : ℝ) : ℝ := 0.5 * bw * d * v fck * fcd

/-- codes/ec2_2004/shear.py:355-401. -/
def VRds (Asw s z theta fyk : ℝ) (alpha : ℝ := 90) (gamma_s : ℝ := 1.15) : Except PyErr ℝ := do
  let fywd ← pyDiv fyk gamma_s
  thetaCheck theta
  let q ← pyDiv Asw s
  let ct ← pyCot (radians theta)
  let ca ← pyCot (radians alpha)
  return q * z * fywd * (ct + ca) * Real.sin (radians alpha)

/-- codes/ec2_2004/shear.py:405-441. -/
def Asw_s_required (Ved z theta fywd : ℝ) (alpha : ℝ := 90) : Except PyErr ℝ := do
  let a ← pyDiv Ved z
  let b ← pyDiv a fywd
  let ct ← pyCot (radians theta)
  let ca ← pyCot (radians alpha)
  let c ← pyDiv b (ct + ca)
  pyDiv c (Real.sin (radians alpha))

/-- codes/ec2_2004/shear.py:446-498. -/
def VRdmax (bw z fck theta NEd Ac fcd : ℝ) (alpha : ℝ := 90) (limit_fyd : Bool := false) : Except PyErr ℝ := do
  thetaCheck theta
  let a ← alpha_cw NEd Ac fcd
  let ct ← pyCot (radians theta)
  let ca ← pyCot (radians alpha)
  return a * bw * z * (if limit_fyd then v1 fck else v fck) * fcd * (ct + ca) / (1 + ct ^ 2)

/-- codes/ec2_2004/shear.py:503-551. -/
def Asw_max (fcd fck bw s fywd NEd Ac : ℝ) (alpha : ℝ := 90) : Except PyErr ℝ := do
  let a ← alpha_cw NEd Ac fcd
  pyDiv (1 / 2 * a * v fck * fcd * bw * s) (fywd * Real.sin (radians alpha))

end

end SC.EC2_2004
