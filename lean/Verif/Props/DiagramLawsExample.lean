import Verif.Props.DiagramLaws
import Verif.Props.CurvatureExample

/-! # C87: the theorems of `DiagramLaws` on the beams of `RCExample` and `OrdinaryExample` -/

set_option autoImplicit false

namespace SC

open Spec MeasureTheory

variable {lower : String → String}

/-- Without curvature and without axial force the diagram returns the unstrained section, when the load is accepted. -/
theorem mc_unstrained {E : Engine} {base : ℝ → Except PyErr (List Group)} (hE : E.Lawful base) {D : List Group}
    (hD : base E.meshSize = .ok D) {th : ℝ} {G : ℝ → Fin 3 → ℝ} (hA : E.Gives D th 0 G) (h0 : G 0 0 = 0)
    {s : CalcState} (hs : Canonical E base s) (hcheck : (checkAxialLoad E 0 s).2 = .ok ()) (c : ℝ) (a b : ℕ) :
    (momentCurvature E th 0 c a b (some [0]) s).2 = .ok [(0, (G 0 1, G 0 2), rot2 th (0, 0))] := by
  obtain ⟨D', L, hD', hs1⟩ := check_ok_state hE hs (Prod.ext rfl hcheck : checkAxialLoad E 0 s = (_, .ok ()))
  rw [hD] at hD'
  cases hD'
  have h1 : checkAxialLoad E 0 s = (⟨some D, some L⟩, .ok ()) := Prod.ext hs1 hcheck
  obtain ⟨F1, hF1, hF2, hF3⟩ := hA 0 defaultMesh
  have hrun : fixedCurvature (fun e _ => G e 0) 0 0 0 = some (.ok (0, 0, 0), 1) := by
    simp only [fixedCurvature, h0, sub_zero, abs_zero]
    rw [if_pos (by norm_num)]
  have hcur : curvatureM E (-th) 0 0 0 ⟨some (D.map (rotGroup (-th))), some L⟩ =
      (⟨some (D.map (rotGroup (-th))), some L⟩, .ok ![0, 0, 0]) := by
    unfold curvatureM
    rw [CalcM.bind_ok (s' := ⟨some (D.map (rotGroup (-th))), some L⟩) (a := .forces F1) (by rw [call_some, hF1])]
    simp only [withData]
    rw [fixedCurvatureE_at (N' := fun e _ => G e 0) (fun e => by
      obtain ⟨F, h1, h2, -⟩ := hA e defaultMesh
      rw [oracleN, h1]
      simp only [Response.N, h2]), hrun]
    rfl
  unfold momentCurvature
  rw [CalcM.bind_ok h1]
  rw [CalcM.bind_ok (s' := ⟨some (D.map (rotGroup (-th))), some L⟩) (a := ()) rfl]
  rw [CalcM.bind_ok (s' := ⟨some (D.map (rotGroup (-th))), some L⟩) (a := [0]) rfl]
  rw [CalcM.bind_ok (s' := ⟨some (D.map (rotGroup (-th))), some L⟩) (a := [(0, (G 0 1, G 0 2), rot2 th (0, 0))]) ?_]
  · rfl
  · rw [mcLoop, CalcM.bind_ok hcur,
      CalcM.bind_ok (s' := ⟨some (D.map (rotGroup (-th))), some L⟩) (a := .forces F1) (by rw [call_some, hF1])]
    have : rot2 th (Response.forces F1).M = (G 0 1, G 0 2) := hF3
    rw [← this]
    rfl

/-- The bending strength is only returned for an axial force that is accepted. -/
theorem check_of_strength {E : Engine} {th n : ℝ} {s : CalcState} {r : BendingResult} (h : (bendingStrength E th n s).2 = .ok r) :
    (checkAxialLoad E n s).2 = .ok () := by
  unfold bendingStrength at h
  rcases hc : checkAxialLoad E n s with ⟨s', r' | r'⟩
  · rw [CalcM.bind_error hc] at h
    cases h
  · rfl

namespace OrdinaryBeam

/-- The bars of the beam and its concrete belong together at curvatures up to 2e-4, about six times the curvature at failure of a typical
beam. -/
theorem tied {L : Law} {f : ℝ → ℝ} {u : ℝ} (hf : Crushes f) (h1 : L.stress 0.04 ≠ 0) (h2 : L.stress (-0.04) ≠ 0) {c : ℝ}
    (hc : |c| ≤ 2e-4) : (plateSection shapes (bars L) f u).Tied 0 c 0.04 := by
  have hr : ∀ r ∈ (plateSection shapes (bars L) f u).rods, r.fibre.resp = L.stress ∧ |r.fibre.z| ≤ 200 := by
    intro r hr
    simp only [plateSection, List.mem_map] at hr
    obtain ⟨b, hb, rfl⟩ := hr
    simp only [bars, bar, List.mem_cons, List.not_mem_nil, or_false] at hb
    rcases hb with rfl | rfl | rfl | rfl <;> exact ⟨rfl, by norm_num [Bar.fibre, abs_of_pos]⟩
  have h0 := abs_nonneg c
  have hm : ∀ t d : ℝ, |t| ≤ d → 0 ≤ d → |c| * |t| ≤ 2e-4 * d := fun t d ht hd =>
    mul_le_mul hc ht (abs_nonneg _) (by norm_num)
  refine ⟨?_, ?_, ?_, ?_⟩
  · intro p hp
    simp only [plateSection, shapes, List.map_cons, List.map_nil, List.mem_singleton] at hp
    subst hp
    exact hf
  · intro r h
    rw [(hr r h).1]
    exact ⟨h1, h2⟩
  · intro r h r' h'
    simp only [RCBeam.height_zero]
    refine (hm _ 400 ?_ (by norm_num)).trans (by norm_num)
    have a1 := abs_le.1 (hr r h).2
    have a2 := abs_le.1 (hr r' h').2
    rw [abs_le]
    constructor <;> linarith [a1.1, a1.2, a2.1, a2.2]
  · intro p hp q hq
    simp only [plateSection, shapes, List.map_cons, List.map_nil, List.mem_singleton] at hp
    subst hp
    have hz := hq.2
    simp only [RCBeam.height_zero]
    rcases le_total q.2 0 with h | h
    · refine ⟨_, by simp only [plateSection, bars, List.map_cons, List.mem_cons, true_or]; exact Or.inl rfl, (hm _ 200 ?_ (by norm_num)).trans (by norm_num)⟩
      simp only [bar, Bar.fibre]
      rw [abs_le]
      constructor <;> linarith [hz.1]
    · refine ⟨_, by simp only [plateSection, bars, List.map_cons, List.mem_cons]; exact Or.inr (Or.inr (Or.inl rfl)), (hm _ 200 ?_ (by norm_num)).trans (by norm_num)⟩
      simp only [bar, Bar.fibre]
      rw [abs_le]
      constructor <;> linarith [hz.2]

/-- C30 with the bilinear diagram and B500, curvature 0: the diagram is returned, and its point, which is the unstrained section, is a
`DiagramPoint`. -/
example (hl : PyLower lower) (ccls : ConcClass) (hcls : ccls ≠ .ec2_2023) (scls : SteelClass) :
    ∃ c s, newConcrete lower ccls bilinearArgs = some (.ok c) ∧ newSteel lower scls sargs = some (.ok s) ∧
    ∃ p, (momentCurvature (sectionEngine RCBeam.split (bilinearSolids ⟨-20, -0.00175, -0.0035⟩ shapes) (bars s.mat.law) 0.01)
        0 0 1e-8 10 10 (some [0]) .fresh).2 = .ok [p] ∧
      DiagramPoint (plateSection shapes (bars s.mat.law) (Bilinear.mk (-20) (-0.00175) (-0.0035)).core 0.0035) (-0.0035, 100) 0 0 0 (0, p) ∧
      (∀ e, (plateSection shapes (bars s.mat.law) (bilinearDiagram 20 0.00175) 0.0035).Admissible e →
        (plateSection shapes (bars s.mat.law) (Bilinear.mk (-20) (-0.00175) (-0.0035)).core 0.0035).forces e =
        (plateSection shapes (bars s.mat.law) (bilinearDiagram 20 0.00175) 0.0035).forces e) := by
  obtain ⟨c, s, hc, hs, b, hb, -⟩ := bilinear_returns hl ccls hcls scls
  refine ⟨c, s, hc, hs, ?_⟩
  have a1 : |(20:ℝ)| = 20 := abs_of_pos (by norm_num)
  have a2 : |(0.00175:ℝ)| = 0.00175 := abs_of_pos (by norm_num)
  have a3 : |(0.0035:ℝ)| = 0.0035 := abs_of_pos (by norm_num)
  have hlw : Bilinear.new? 20 0.00175 (some 0.0035) = .ok ⟨-20, -0.00175, -0.0035⟩ := by
    simp only [Bilinear.new?, a1, a2, a3]
    rw [if_neg (by norm_num)]
  have hex := bilinear_exact hlw (by rw [a2, a3]; norm_num)
  rw [a3] at hex
  have hids := single_ids (one_steel s.mat.law)
  have hsz := single_sizes (one_steel s.mat.law)
  have hbends := law_bends (concrete := true) (ult := (Bilinear.mk (-20) (-0.00175) (-0.0035)).ult) hex shapes_enclosed shapes_split (chis := [0])
    (by rintro ⟨c, hc, h⟩; rw [List.mem_singleton.1 hc] at h; exact absurd h (lt_irrefl _))
  have hA := bends_gives RCBeam.split 0.01 hids hsz (by simp [lawSolids, shapes]) hex.not_close hbends (List.mem_singleton.2 rfl)
  have hE : (sectionEngine RCBeam.split (bilinearSolids ⟨-20, -0.00175, -0.0035⟩ shapes) (bars s.mat.law) 0.01).Lawful
      fun _ => .ok (groupBars (bars s.mat.law)) := marinEngine_lawful _ _ _ _ _ _
  obtain ⟨hult, hst, -⟩ := C73_steel hl scls sargs s hs rfl rfl rfl (gap scls)
  have hrun := mc_unstrained hE rfl (th := 0) hA ?_ .fresh (check_of_strength hb) 1e-8 10 10
  · obtain ⟨h1, h2⟩ := C87_bilinear_partial 0.01 (fun _ _ => 0) hlw (by rw [a2, a3]; norm_num) (by simp [shapes]) shapes_enclosed shapes_hull
      shapes_split hids hsz [0] (by rintro ⟨c, hc, h⟩; rw [List.mem_singleton.1 hc] at h; exact absurd h (lt_irrefl _)) rfl rfl rfl
      0 1e-8 10 10 [] _ trivial hrun
    rw [a1, a2, a3] at h2
    rw [a3] at h1
    refine ⟨_, hrun, ?_, h2⟩
    simpa using h1
  · rw [axial_eq]
    have hh : heldStrain (-0.0035, 100) 0 0 = 0 := by
      rcases heldStrain_cases (-0.0035, 100) 0 0 with h | ⟨-, h | h, h'⟩
      · exact h
      · rw [h] at h'
        norm_num [abs_of_pos] at h'
      · rw [h] at h'
        norm_num [abs_of_pos] at h'
    have hp : ∀ x y : ℝ, planeStrain ![0, 0, 0] x y = 0 := by intro x y; simp [planeStrain]
    rw [hh]
    have hc0 : (Bilinear.mk (-20) (-0.00175) (-0.0035)).core 0 = 0 := by norm_num [Bilinear.core]
    have hs0 : s.mat.law.stress 0 = 0 := by
      rw [hst 0 (by rw [abs_zero]; norm_num at *; linarith [(ultimate_range scls).1])]
      have := yield_range.1
      rw [min_eq_left (by norm_num at *; linarith), max_eq_right (by norm_num at *; linarith), mul_zero]
    simp [crossSection, lawSolids, shapes, bars, bar, Bar.fibre, hp, hc0, hs0]

/-- Popovics' law and B500, curvature 0: the diagram is returned, and its point is a `DiagramPoint`. -/
example (hl : PyLower lower) (scls : SteelClass) :
    ∃ s l, newSteel lower scls sargs = some (.ok s) ∧ Popovics.new? 30 0.002 0.0035 (some 30000) = .ok l ∧
    ∃ p, (momentCurvature (sectionEngine RCBeam.split ((softParts l.stress l.ult 0.0035 shapes).map PolyPart.solid)
          (bars s.mat.law) 0.01) 0 0 1e-8 10 10 (some [0]) .fresh).2 = .ok [p] ∧
      DiagramPoint (plateSection shapes (bars s.mat.law) (polygonal l.stress 0.0035) 0.0035) (-0.0035, 0) 0 0 0 (0, p) := by
  obtain ⟨s, l, hs, hpop, b, hb, -⟩ := popovics_returns hl scls
  refine ⟨s, l, hs, hpop, ?_⟩
  have a1 : |(30:ℝ)| = 30 := abs_of_pos (by norm_num)
  have a2 : |(0.002:ℝ)| = 0.002 := abs_of_pos (by norm_num)
  have a3 : |(0.0035:ℝ)| = 0.0035 := abs_of_pos (by norm_num)
  have hpc := popovics_pieces hpop (by rw [a1, a2]; norm_num) (by norm_num) (by rw [a3]; norm_num)
  rw [a3] at hpc
  have hex := polygonal_exact l.stress (u := 0.0035) (by norm_num)
  have hids := single_ids (one_steel s.mat.law)
  have hsz := single_sizes (one_steel s.mat.law)
  have hup : (∃ c ∈ [(0:ℝ)], 0 < c) → ∀ p ∈ shapes, SplitsExactly RCBeam.split (p.1.rotate (-0)) (rotPt (-0) '' p.2) := by
    rintro ⟨c, hc, h⟩; rw [List.mem_singleton.1 hc] at h; exact absurd h (lt_irrefl _)
  have hbends := law_bends (concrete := true) (ult := l.ult) hex shapes_enclosed shapes_split (chis := [0]) hup
  have hA := bends_gives RCBeam.split 0.01 hids hsz (by simp [lawSolids, shapes]) hex.not_close hbends (List.mem_singleton.2 rfl)
  have hE : (sectionEngine RCBeam.split ((softParts l.stress l.ult 0.0035 shapes).map PolyPart.solid) (bars s.mat.law) 0.01).Lawful
      fun _ => .ok (groupBars (bars s.mat.law)) := marinEngine_lawful _ _ _ _ _ _
  obtain ⟨hult, hst, -⟩ := C73_steel hl scls sargs s hs rfl rfl rfl (gap scls)
  have hrun := mc_unstrained hE rfl (th := 0) hA ?_ .fresh (check_of_strength hb) 1e-8 10 10
  · obtain ⟨h1, -⟩ := C87_pieces_partial 0.01 (fun _ _ => 0) hpc (by norm_num) (by simp [shapes]) shapes_enclosed shapes_hull
      shapes_split hids hsz [0] hup rfl rfl rfl 0 1e-8 10 10 [] _ trivial hrun
    refine ⟨_, hrun, ?_⟩
    simpa using h1
  · rw [axial_eq]
    have hp : ∀ x y : ℝ, planeStrain ![0, 0, 0] x y = 0 := by intro x y; simp [planeStrain]
    have hh : heldStrain (-0.0035, 0) 0 0 = 0 := by
      rcases heldStrain_cases (-0.0035, 0) 0 0 with h | ⟨-, h | h, h'⟩
      · exact h
      · rw [h] at h'
        norm_num [abs_of_pos] at h'
      · exact h
    rw [hh]
    have hc0 : polygonal l.stress 0.0035 0 = 0 := by
      have := polygonal_chord l.stress (u := 0.0035) (by norm_num) 9 (by norm_num) 1 (by norm_num) (by norm_num)
      simp only [sub_self, zero_mul, one_mul, zero_add] at this
      rw [show 9 + 1 = 10 from rfl, tenth_ten, hpc.zero] at this
      rwa [show tenth 0.0035 9 + 0.0035 / 10 = 0 by simp only [tenth]; norm_num] at this
    have hs0 : s.mat.law.stress 0 = 0 := by
      rw [hst 0 (by rw [abs_zero]; norm_num at *; linarith [(ultimate_range scls).1])]
      have := yield_range.1
      rw [min_eq_left (by norm_num at *; linarith), max_eq_right (by norm_num at *; linarith), mul_zero]
    simp [crossSection, lawSolids, shapes, bars, bar, Bar.fibre, hp, hc0, hs0]

end OrdinaryBeam

namespace RCBeam

theorem tied {c : ℝ} (hc : |c| ≤ 2e-4) :
    (plateSection OrdinaryBeam.shapes bars (ParabolaRectangle.new 20 0.002 0.0035 2).core |0.0035|).Tied 0 c 0.04 := by
  have := OrdinaryBeam.tied (L := steel.law) (u := |0.0035|) (f := (ParabolaRectangle.new 20 0.002 0.0035 2).core)
    (parabola_crushes (by norm_num) (by norm_num) (by norm_num [abs_of_pos])) (c := c)
    (by rw [steel_stress (by norm_num) (by norm_num), min_eq_right (by norm_num), max_eq_right (by norm_num)]; norm_num)
    (by rw [steel_stress (by norm_num) (by norm_num), min_eq_left (by norm_num), max_eq_left (by norm_num)]; norm_num) hc
  exact this

/-- For every tension in `(0, 1]` the diagram at the curvature -1e-5 is returned and its point is a `DiagramPoint`; the search did not meet
a broken state. -/
example {n : ℝ} (h0 : 0 < n) (h1 : n ≤ 1) :
    ∃ p, (momentCurvature engine 0 n 1e-8 10 10 (some [-1e-5]) .fresh).2 = .ok [p] ∧
      DiagramPoint (plateSection OrdinaryBeam.shapes bars (ParabolaRectangle.new 20 0.002 0.0035 2).core |0.0035|) (-|0.0035|, 100) 0 n (-1e-5)
        (0, p) ∧
      (plateSection OrdinaryBeam.shapes bars (ParabolaRectangle.new 20 0.002 0.0035 2).core |0.0035|).Tied 0 (-1e-5) 0.04 := by
  obtain ⟨pts, hp⟩ := diagram_returns h0 h1
  have h := (C70_zero_partial 0.01 (fun _ _ => 0) (fc := 20) (e0 := 0.002) (u := 0.0035) (shapes := OrdinaryBeam.shapes) (bars := bars) (th := 0)
    (split := split) (by norm_num) (by norm_num [abs_of_pos]) (by simp [OrdinaryBeam.shapes]) OrdinaryBeam.shapes_enclosed
    OrdinaryBeam.shapes_hull OrdinaryBeam.shapes_split ids sizes [-1e-5]
    (by rintro ⟨c, hc, h⟩; rw [List.mem_singleton.1 hc] at h; norm_num at h) (E := engine) rfl rfl rfl n 1e-8 10 10 [] pts trivial hp).1
  match pts, hp, h with
  | [], _, h => cases h
  | [p], hp, h =>
    refine ⟨p, hp, ?_, tied (by norm_num [abs_of_pos])⟩
    simpa using h
  | _ :: _ :: _, _, h =>
    cases h with
    | cons _ h => simp at h

/-- The hypotheses of `C87_default_partial` hold for the beam and the default numbers of points. -/
example (lu : Matrix (Fin 3) (Fin 3) ℝ → (Fin 3 → ℝ) → (Fin 3 → ℝ)) :
    ∃ C : Set ℝ, C.Countable ∧ ∀ n, ∀ pts : List MCPoint, (momentCurvature engine 0 n 1e-8 10 10 none .fresh).2 = .ok pts →
      ∃ cy < 0, ∃ cu < 0, ∃ chis : List ℝ, DefaultCurvatures chis 10 10 cy cu ∧
        (∀ b, (bendingStrength engine 0 n .fresh).2 = .ok b → b.chi = (cu, 0)) ∧
        (n ∉ C → ∀ q ∈ (0 :: pts.map Prod.fst).zip pts,
          |(crossSection ([concrete].map ConcretePart.solid) bars).forces q.2.plane 0 - n| ≤ 1e-2 ∨
          DrivenAway (crossSection ([concrete].map ConcretePart.solid) bars) n q.2 q.1) := by
  obtain ⟨b1, b2⟩ := failures true
  obtain ⟨C, hC, -, h⟩ := C87_default_partial 0.01 lu (concrete := true) (ult := (ParabolaRectangle.new 20 0.002 0.0035 2).ult)
    (parabola_exact 20 0.002 0.0035 (by norm_num) (by norm_num [abs_of_pos])) (shapes := OrdinaryBeam.shapes) (bars := bars) (th := 0)
    (split := split) OrdinaryBeam.shapes_enclosed OrdinaryBeam.shapes_split ids sizes (E := engine) rfl
    (S := crossSection ([concrete].map ConcretePart.solid) bars) rfl b1 b2 (by norm_num) (by norm_num)
    1e-8 (by norm_num) 10 10 (by norm_num) (by norm_num)
  refine ⟨C, hC, fun n pts hp => ?_⟩
  obtain ⟨cy, hy, cu, hu, -, -, hb, chis, h1, -, h2⟩ := h n [] pts trivial hp
  exact ⟨cy, hy, cu, hu, chis, h1, fun b hb' => by simpa using hb [] b trivial hb', h2⟩

end RCBeam

end SC
