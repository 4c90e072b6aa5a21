import Verif.Props.OrdinaryDomain

/-! # C67: the other interaction domains of a designed section -/

set_option autoImplicit false

namespace SC

open Spec MeasureTheory

variable {lower : String → String}

theorem nmmLoop_returns {bal : ℝ → Bool → Except PyErr (ℝ × ℝ × (Fin 3 → ℝ))} {minY : ℝ → ℝ} {rc : Bool}
    {num : Fin 6 → ℤ} {ty : Fin 6 → Spacing} {P : List (Fin 3 → ℝ) → List ℕ → Prop} {ths : List ℝ} {k0 : List ℕ}
    (h : ∀ th ∈ ths, ∃ q, ultimateProfiles (bal (-th)) (minY (-th)) rc th num ty = .ok (q, k0) ∧ P q k0) :
    ∀ (acc : List (Fin 3 → ℝ)) (k : Option (List ℕ)), (k = some k0 ∨ ths ≠ []) →
      ∃ chunks : List (List (Fin 3 → ℝ)), nmmLoop bal minY rc num ty ths acc k = .ok (acc ++ chunks.flatten, some k0) ∧
        List.Forall₂ (fun th q => ultimateProfiles (bal (-th)) (minY (-th)) rc th num ty = .ok (q, k0) ∧ P q k0) ths chunks := by
  induction ths with
  | nil =>
    intro acc k hk
    refine ⟨[], ?_, .nil⟩
    rcases hk with rfl | hk
    · simp [nmmLoop]
    · exact absurd rfl hk
  | cons th rest ih =>
    intro acc k _
    obtain ⟨q, hq, hP⟩ := h th (by simp)
    obtain ⟨chunks, hc, hf⟩ := ih (fun t ht => h t (by simp [ht])) (acc ++ q) (some k0) (Or.inl rfl)
    refine ⟨q :: chunks, ?_, .cons ⟨hq, hP⟩ hf⟩
    simp only [nmmLoop, hq]
    rw [hc, List.flatten_cons, List.append_assoc]

/-- **C67** (N-My-Mz domain of a designed section; partial: as `C67_design_partial`). `calculate_nmm_interaction_domain` returns the
profiles of the angles `0 ... 2 pi`, in order, each with the profiles of `calculate_nm_interaction_domain` for that angle; all are
admissible, those of fields 1 to 5 at a limit strain, and the points are exactly `(N, My, Mz)` of the section. -/
theorem C67_design_nmm_partial (hl : PyLower lower)
    (scls : SteelClass) (sa : SteelArgs) (s : Built Steel)
    (hs : newSteel lower scls sa = some (.ok s)) (hsn : sa.law = .name "elasticperfectlyplastic")
    (hsi : sa.initialStrain = none ∧ sa.initialStress = none)
    (hgap : designYield sa + 1e-6 + 1e-5 * designUltimate scls sa ≤ designUltimate scls sa) (hey : 1e-4 ≤ designYield sa)
    (heu : 0.0035 ≤ designUltimate scls sa ∧ designUltimate scls sa ≤ 0.09)
    (split : Polygon → ℝ → ℝ → ShapelyResult) (ms : ℝ) (lu : Matrix (Fin 3) (Fin 3) ℝ → (Fin 3 → ℝ) → (Fin 3 → ℝ))
    (shapes : List (Polygon × Set (ℝ × ℝ))) (bars : List Bar) (id : ℕ) (hbars : ∀ b ∈ bars, b.law = ⟨id, s.mat.law⟩)
    (henc : ∀ p ∈ shapes, Encloses p.1.ext p.1.ints p.2) (hull : ∀ p ∈ shapes, p.2 ⊆ convexHull ℝ {v | v ∈ p.1.ext})
    (numTheta : ℕ) (hth : 1 ≤ numTheta)
    (hcut : ∀ th ∈ linspace 0 (Real.pi * 2) numTheta true, CutsExactly split th shapes)
    (hdir : ∀ th ∈ linspace 0 (Real.pi * 2) numTheta true, ∃ lo hi, RCDirection th shapes (bars.map fun b => (b.x, b.y)) lo hi)
    (num : Fin 6 → ℤ) (ty : Fin 6 → Spacing) (hnum : ProfileArgs num ty)
    (fc : ℝ) (S : CrossSection) (hS : S = concreteSection (normalParts fc shapes) bars)
    (E : Engine) (hE : E = sectionEngine split ((normalParts fc shapes).map ConcretePart.solid) bars ms)
    (ops : List Op) (hops : Undisturbed E lu ops .fresh) :
    ∃ (chunks : List (List (Fin 3 → ℝ))) (labels : List ℕ),
      nmmProfiles E.balanced (sectionMinY (shapes.map Prod.fst)) true numTheta num ty = .ok (chunks.flatten, labels) ∧
      (nmmDomain E ((nmmProfiles E.balanced (sectionMinY (shapes.map Prod.fst)) true numTheta num ty).map Prod.fst)
        (history E lu ops .fresh)).2 = .ok (chunks.flatten.map fun v => .forces (S.forces v)) ∧
      List.Forall₂ (fun th q =>
        nmProfiles E.balanced (sectionMinY (shapes.map Prod.fst)) true th num ty false = .ok (q, labels) ∧
        (∀ v ∈ q, S.Admissible v) ∧ ∀ r ∈ q.zip labels, r.2 ≤ 5 → S.AtLimit r.1) (linspace 0 (Real.pi * 2) numTheta true) chunks := by
  obtain ⟨hult, -, -⟩ := C73_steel hl scls sa s hs hsn hsi.1 hsi.2 hgap
  have hyield := steel_yield hl scls sa s hs hsn hsi.1 hsi.2
  have hey' : designYield sa ≤ designUltimate scls sa := by
    have := heu.1
    norm_num at *
    linarith
  have hpoly : shapes.map Prod.fst = (normalParts fc shapes).map ConcretePart.polygon := by
    simp only [normalParts, List.map_map, Function.comp_def]
  rw [hpoly]
  subst hS
  subst hE
  have hdata := fun th hth => (Classical.choose_spec (Classical.choose_spec (hdir th hth))).profiles (fc := fc) (ms := ms) hbars hult hyield
    heu.1 heu.2 hey hey' henc hull (hcut th hth) hnum
  have hne : linspace 0 (Real.pi * 2) numTheta true ≠ [] := by
    intro h0
    have := congrArg List.length h0
    simp [linspace] at this
    omega
  obtain ⟨chunks, hrun, hf⟩ := nmmLoop_returns
    (bal := (sectionEngine split ((normalParts fc shapes).map ConcretePart.solid) bars ms).balanced)
    (minY := sectionMinY ((normalParts fc shapes).map ConcretePart.polygon)) (rc := true) (num := num) (ty := ty)
    (P := fun q k => (∀ v ∈ q, (concreteSection (normalParts fc shapes) bars).Admissible v) ∧
      ∀ r ∈ q.zip k, r.2 ≤ 5 → (concreteSection (normalParts fc shapes) bars).AtLimit r.1)
    (ths := linspace 0 (Real.pi * 2) numTheta true)
    (k0 := (List.finRange 6).flatMap fun i => List.replicate (num i).toNat (i.val + 1)) (by
      intro th hth
      obtain ⟨-, -, q, k, h1, h2, h3, -⟩ := hdata th hth
      obtain ⟨-, -, -, -, -, rfl⟩ := ultimateProfiles_ok h1
      exact ⟨q, h1, h2, h3⟩) [] none (Or.inr hne)
  have hprof : nmmProfiles (sectionEngine split ((normalParts fc shapes).map ConcretePart.solid) bars ms).balanced
      (sectionMinY ((normalParts fc shapes).map ConcretePart.polygon)) true numTheta num ty =
      .ok (chunks.flatten, (List.finRange 6).flatMap fun i => List.replicate (num i).toNat (i.val + 1)) := by
    simp only [nmmProfiles, hrun, List.nil_append]
  have hok := fun th hth => (hdata th hth).2.1
  obtain ⟨t0, ht0⟩ := List.exists_mem_of_ne_nil _ hne
  refine ⟨chunks, _, hprof, ?_, hf.imp fun th q hq => ⟨?_, hq.2⟩⟩
  · refine (C67_nmm_partial split _ bars ms lu ops hops (single_ids hbars) (single_sizes hbars) (fun p hp =>
      ⟨(hok t0 ht0 p hp).encloses, (hok t0 ht0 p hp).inHull, (hok t0 ht0 p hp).peak, (hok t0 ht0 p hp).plateau⟩) true num ty numTheta hprof
      (fun th hth => ?_) ?_).2
    · obtain ⟨⟨yp, ho⟩, -⟩ := hdata th hth
      exact ⟨_, _, _, _, _, _, ho⟩
    · intro p hp th hth v h1 h2
      obtain ⟨r, hr, rfl⟩ := List.mem_map.1 hp
      exact hcut th hth r hr _ (neutral_direction h1 h2)
  · simp only [nmProfiles, hq.1, Bool.false_eq_true, if_false]

/-- **C67** (My-Mz domain of a designed section; partial: as `C73_design_partial`). For every load within the limit loads (up to the
margin of C73) `calculate_mm_interaction_domain` returns one point per angle, in order; the strain plane of each point has the
requested inclination, is at a limit strain and exceeds none, its moments are exactly the returned ones, and its axial force is
within 0.01 of the requested one (but for countably many loads). -/
theorem C67_design_mm_partial (hl : PyLower lower) (ccls : ConcClass) (ca : ConcArgs) (c : Built Conc)
    (hc : newConcrete lower ccls ca = some (.ok c)) (hcn : ca.law = .name "parabolarectangle")
    (hci : ca.initialStrain = none ∧ ca.initialStress = none) (hce : ca.eps_c2 = none ∧ ca.eps_cu2 = none ∧ ca.n = none)
    (hcf : ccls ≠ .ec2_2023 → |ca.fck| ≤ 50)
    (scls : SteelClass) (sa : SteelArgs) (s : Built Steel)
    (hs : newSteel lower scls sa = some (.ok s)) (hsn : sa.law = .name "elasticperfectlyplastic")
    (hsi : sa.initialStrain = none ∧ sa.initialStress = none)
    (hgap : designYield sa + 1e-6 + 1e-5 * designUltimate scls sa ≤ designUltimate scls sa)
    (heu : 0.0035 ≤ designUltimate scls sa ∧ designUltimate scls sa ≤ 0.09)
    (split : Polygon → ℝ → ℝ → ShapelyResult) (ms : ℝ) (lu : Matrix (Fin 3) (Fin 3) ℝ → (Fin 3 → ℝ) → (Fin 3 → ℝ))
    (shapes : List (Polygon × Set (ℝ × ℝ))) (bars : List Bar) (id : ℕ) (hbars : ∀ b ∈ bars, b.law = ⟨id, s.mat.law⟩)
    (henc : ∀ p ∈ shapes, Encloses p.1.ext p.1.ints p.2) (hull : ∀ p ∈ shapes, p.2 ⊆ convexHull ℝ {v | v ∈ p.1.ext})
    {H H0 : ℝ} (hg0 : RCGeometry 0 shapes (bars.map fun b => (b.x, b.y)) H0) (thetas : List ℝ)
    (hcut : ∀ th ∈ thetas, CutsExactly split th shapes)
    (hg : ∀ th ∈ thetas, RCGeometry th shapes (bars.map fun b => (b.x, b.y)) H)
    (fc : ℝ) (hfc : fc = designConcrete ccls ca) (δ : ℝ)
    (hδ : δ = (2 * |fc| / 0.002 * (shapes.map fun p => areaMoment 0 0 p.2).sum + |sa.Es| * (bars.map fun b => |b.area|).sum) * H)
    (hsmall : δ ≤ 1e22) (S : CrossSection) (hS : S = concreteSection (normalParts fc shapes) bars)
    (E : Engine) (hE : E = sectionEngine split ((normalParts fc shapes).map ConcretePart.solid) bars ms) :
    ∃ C : Set ℝ, C.Countable ∧ ∀ (n : ℝ) (ops : List Op), Undisturbed E lu ops .fresh →
      S.forces ![-0.0035, 0, 0] 0 + δ * 1e-13 < n → n < S.forces ![designUltimate scls sa, 0, 0] 0 - δ * 1e-13 →
      ∃ bs : List BendingResult, (mmDomain E n thetas (history E lu ops .fresh)).2 = .ok bs ∧
        List.Forall₂ (fun th b =>
          (∃ c < 0, b.chi = (c * Real.cos th, c * Real.sin th)) ∧
          S.forces ![b.eps_a, b.chi.1, b.chi.2] = ![b.n, b.m.1, b.m.2] ∧
          S.AtLimit ![b.eps_a, b.chi.1, b.chi.2] ∧ S.Admissible ![b.eps_a, b.chi.1, b.chi.2] ∧
          (n ∉ C → |b.n - n| ≤ 1e-2)) thetas bs := by
  induction thetas with
  | nil =>
    refine ⟨∅, Set.countable_empty, fun n ops _ _ _ => ⟨[], ?_, .nil⟩⟩
    simp only [mmDomain, CalcM.pure_def]
  | cons th rest ih =>
    obtain ⟨C1, hC1, h1⟩ := ih (fun t ht => hcut t (by simp [ht])) (fun t ht => hg t (by simp [ht]))
    obtain ⟨-, C2, hC2, h2⟩ := C73_design_partial hl ccls ca c hc hcn hci hce hcf scls sa s hs hsn hsi hgap heu split ms th lu shapes bars id
      hbars henc hull (fun p hp => (hcut th (by simp)).twice hp) hg0 (hg th (by simp)) fc hfc δ hδ hsmall S hS E hE
    refine ⟨C1 ∪ C2, hC1.union hC2, fun n ops hops hlo hhi => ?_⟩
    obtain ⟨b, hb, a1, a2, a3, a4, a5⟩ := (h2 n ops hops).2 hlo hhi
    obtain ⟨s1, hb'⟩ : ∃ s1, bendingStrength E th n (history E lu ops .fresh) = (s1, .ok b) := ⟨_, Prod.ext rfl hb⟩
    have hrun : (Op.bending th n).run E lu (history E lu ops .fresh) = (s1, .ok (.bending b)) := by
      simp only [Op.run]
      rw [CalcM.bind_ok hb']
      rfl
    have hs1 : history E lu (ops ++ [.bending th n]) .fresh = s1 := by rw [history_append, hrun]
    obtain ⟨bs, hbs, hf⟩ := h1 n (ops ++ [.bending th n]) (undisturbed_append hops ⟨_, by rw [hrun]⟩) hlo hhi
    rw [hs1] at hbs
    obtain ⟨s2, hbs'⟩ : ∃ s2, mmDomain E n rest s1 = (s2, .ok bs) := ⟨_, Prod.ext rfl hbs⟩
    refine ⟨b :: bs, ?_, .cons ⟨a1, a2, a3, a4, fun h => a5 fun h' => h (Or.inr h')⟩ (hf.imp fun t b' hb'' =>
      ⟨hb''.1, hb''.2.1, hb''.2.2.1, hb''.2.2.2.1, fun h => hb''.2.2.2.2 fun h' => h (Or.inl h')⟩)⟩
    simp only [mmDomain]
    rw [CalcM.bind_ok hb', CalcM.bind_ok hbs']
    rfl

end SC
