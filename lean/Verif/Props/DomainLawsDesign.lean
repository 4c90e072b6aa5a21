import Verif.Props.DomainLaws
import Verif.Props.DiagramLaws
import Verif.Props.OrdinaryDomainExample
import Verif.Props.BilinearDesign
import Verif.Props.SarginDesign

/-! # C88: interaction domains with the concrete laws of the library, from the material objects -/

set_option autoImplicit false

namespace SC

open Spec MeasureTheory

/-! ### The uniform strains of the profiles are kept -/

theorem snap_kept {lim : ℝ × ℝ} {e : ℝ} (h1 : e = lim.2 ∨ 1e-6 + 1e-5 * |lim.2| < |e - lim.2|)
    (h2 : e = lim.1 ∨ 1e-6 + 1e-5 * |lim.1| < |e - lim.1|) : snap lim e = e := by
  unfold snap isclose
  rcases h1 with h1 | h1
  · rw [h1, sub_self, abs_zero, if_pos (by positivity)]
  · rw [if_neg (not_le.2 h1)]
    rcases h2 with h2 | h2
    · rw [h2, sub_self, abs_zero, if_pos (by positivity)]
    · rw [if_neg (not_le.2 h2)]

theorem DomainStrains.kept {bars : List Bar} {e0 u ey eu : ℝ} (h : DomainStrains bars e0 u ey eu) {t : ℝ} (ht : t = 100 ∨ t = 0) (e : ℝ)
    (he : e = eu ∨ e = -u ∨ e = -e0) : snap (-u, t) e = e := by
  obtain ⟨c1, c2⟩ := h.crushing
  obtain ⟨p1, p2⟩ := h.peak
  obtain ⟨r1, r2⟩ := h.rupture
  have hu : |(-u)| = u := by rw [abs_neg, abs_of_nonneg]; norm_num at *; linarith
  have ht' : |t| = t := by rcases ht with rfl | rfl <;> norm_num
  refine snap_kept (.inr ?_) ?_
  · simp only [ht', lt_abs]
    rcases he with rfl | rfl | rfl <;> rcases ht with rfl | rfl <;>
      first
      | (left; norm_num at *; linarith)
      | (right; norm_num at *; linarith)
  · simp only [hu, lt_abs]
    rcases he with rfl | rfl | rfl
    · right; left; norm_num at *; linarith
    · left; rfl
    · right; left; norm_num at *; linarith

/-! ### The laws of the library -/

section Laws

variable {split : Polygon → ℝ → ℝ → ShapelyResult} {shapes : List (Polygon × Set (ℝ × ℝ))} {bars : List Bar} {th ms ey eu lo hi : ℝ}

/-- **C88** (N-M domain, bilinear law; partial: bars of one steel, one concrete, Marin integrator). Whatever was calculated before,
`calculate_nm_interaction_domain` returns; its points are exactly `(N, My, Mz)` of the section with the bilinear design diagram under
its strain profiles; no profile exceeds a limit strain; those of fields 1 to 5 are at a limit strain; the first one is uniform
tension at the rupture strain of the steel, the last one uniform compression at the peak strain. -/
theorem C88_bilinear_partial (lu : Matrix (Fin 3) (Fin 3) ℝ → (Fin 3 → ℝ) → (Fin 3 → ℝ)) {fc ec u : ℝ} {l : Bilinear}
    (hl : Bilinear.new? fc ec (some u) = .ok l) (hS : DomainStrains bars |ec| |u| ey eu)
    (henc : ∀ p ∈ shapes, Encloses p.1.ext p.1.ints p.2) (hull : ∀ p ∈ shapes, p.2 ⊆ convexHull ℝ {v | v ∈ p.1.ext})
    (hcut : CutsExactly split th shapes)
    (hdir : RCSide th (|ec| / |u|) shapes (bars.map fun b => (b.x, b.y)) lo hi) (complete : Bool) {lo' hi' : ℝ}
    (hdir' : complete = true → RCSide (th + Real.pi) (|ec| / |u|) shapes (bars.map fun b => (b.x, b.y)) lo' hi')
    {num : Fin 6 → ℤ} {ty : Fin 6 → Spacing} (ha : ProfileArgs num ty)
    {E : Engine} (hE : E = sectionEngine split (bilinearSolids l shapes) bars ms)
    {T : CrossSection} (hT : T = plateSection shapes bars (bilinearDiagram |fc| |ec|) |u|)
    (ops : List Op) (hops : Undisturbed E lu ops .fresh) :
    ∃ planes labels,
      nmProfiles E.balanced (sectionMinY (shapes.map Prod.fst)) true th num ty complete = .ok (planes, labels) ∧
      (nmDomain E ((nmProfiles E.balanced (sectionMinY (shapes.map Prod.fst)) true th num ty complete).map Prod.fst)
        (history E lu ops .fresh)).2 = .ok (planes.map fun v => .forces (T.forces v)) ∧
      planes.length = (∑ i, num i).toNat + (if complete then (∑ i, num i).toNat - 2 else 0) ∧
      (∀ v ∈ planes, T.Admissible v) ∧ (∀ q ∈ planes.zip labels, q.2 ≤ 5 → T.AtLimit q.1) ∧
      (ty 0 = .linear → 1 ≤ num 0 → planes.head? = some ![eu, 0, 0]) ∧
      (complete = false → planes.getLast? = some ![-|ec|, 0, 0]) := by
  have hle : |ec| ≤ |u| := by have := hS.peak.2; norm_num at *; linarith
  have hult : Limits l.ult |ec| |u| := by rw [(bilinear_new hl).2]; exact ⟨rfl, rfl⟩
  obtain ⟨planes, labels, h1, h2, h3, h4, h5, h6⟩ := law_nm (ms := ms) (f := l.core) (bilinear_exact hl hle) (hS.kept (Or.inl rfl)) hult hS
    henc hull hcut hdir complete hdir' ha lu hE rfl ops hops
  subst hT
  refine ⟨planes, labels, h1, ?_, h3, fun v hv => (plate_admissible _ _ v).1 (h4 v hv), fun q hq h => (plate_limit _ _ _).1 (h5 q hq h), h6⟩
  rw [h2]
  congr 1
  refine List.map_congr_left fun v hv => ?_
  rw [plate_congr henc hull (fun x hx => bilinear_spec hl hx) (h4 v hv)]

/-- **C88** (N-My-Mz domain, bilinear law; partial: as `C88_bilinear_partial`). The profiles are those of the angles `0 ... 2 pi`, in
order, each as in the N-M domain of that angle; the points are exactly `(N, My, Mz)` of the section with the bilinear design diagram. -/
theorem C88_bilinear_nmm_partial (lu : Matrix (Fin 3) (Fin 3) ℝ → (Fin 3 → ℝ) → (Fin 3 → ℝ)) {fc ec u : ℝ} {l : Bilinear}
    (hl : Bilinear.new? fc ec (some u) = .ok l) (hS : DomainStrains bars |ec| |u| ey eu)
    (henc : ∀ p ∈ shapes, Encloses p.1.ext p.1.ints p.2) (hull : ∀ p ∈ shapes, p.2 ⊆ convexHull ℝ {v | v ∈ p.1.ext})
    (numTheta : ℕ) (hth : 1 ≤ numTheta)
    (hcut : ∀ th ∈ linspace 0 (Real.pi * 2) numTheta true, CutsExactly split th shapes)
    (hdir : ∀ th ∈ linspace 0 (Real.pi * 2) numTheta true, ∃ lo hi, RCSide th (|ec| / |u|) shapes (bars.map fun b => (b.x, b.y)) lo hi)
    {num : Fin 6 → ℤ} {ty : Fin 6 → Spacing} (ha : ProfileArgs num ty)
    {E : Engine} (hE : E = sectionEngine split (bilinearSolids l shapes) bars ms)
    {T : CrossSection} (hT : T = plateSection shapes bars (bilinearDiagram |fc| |ec|) |u|)
    (ops : List Op) (hops : Undisturbed E lu ops .fresh) :
    ∃ (chunks : List (List (Fin 3 → ℝ))) (labels : List ℕ),
      nmmProfiles E.balanced (sectionMinY (shapes.map Prod.fst)) true numTheta num ty = .ok (chunks.flatten, labels) ∧
      (nmmDomain E ((nmmProfiles E.balanced (sectionMinY (shapes.map Prod.fst)) true numTheta num ty).map Prod.fst)
        (history E lu ops .fresh)).2 = .ok (chunks.flatten.map fun v => .forces (T.forces v)) ∧
      List.Forall₂ (fun th q =>
        nmProfiles E.balanced (sectionMinY (shapes.map Prod.fst)) true th num ty false = .ok (q, labels) ∧
        (∀ v ∈ q, T.Admissible v) ∧ ∀ r ∈ q.zip labels, r.2 ≤ 5 → T.AtLimit r.1) (linspace 0 (Real.pi * 2) numTheta true) chunks := by
  have hle : |ec| ≤ |u| := by have := hS.peak.2; norm_num at *; linarith
  have hult : Limits l.ult |ec| |u| := by rw [(bilinear_new hl).2]; exact ⟨rfl, rfl⟩
  obtain ⟨chunks, labels, h1, h2, h3⟩ := law_nmm (ms := ms) (f := l.core) (bilinear_exact hl hle) (hS.kept (Or.inl rfl)) hult hS
    henc hull numTheta hth hcut hdir ha lu hE rfl ops hops
  subst hT
  refine ⟨chunks, labels, h1, ?_, h3.imp fun t q hq => ⟨hq.1, fun v hv => (plate_admissible _ _ v).1 (hq.2.1 v hv),
    fun r hr h => (plate_limit _ _ _).1 (hq.2.2 r hr h)⟩⟩
  rw [h2]
  congr 1
  refine List.map_congr_left fun v hv => ?_
  obtain ⟨q, hq, hvq⟩ := List.mem_flatten.1 hv
  obtain ⟨t, -, ht⟩ := forall₂_right h3 hq
  rw [plate_congr henc hull (fun x hx => bilinear_spec hl hx) (ht.2.1 v hvq)]

theorem pieces_near {stress : ℝ → ℝ} {ult : Bool → ℝ × ℝ}
    {g : ℝ → ℝ} {u fc Lc d : ℝ} (h : Pieces stress ult g u fc Lc d) (hu : 0 < u)
    (henc : ∀ p ∈ shapes, Encloses p.1.ext p.1.ints p.2) (hull : ∀ p ∈ shapes, p.2 ⊆ convexHull ℝ {v | v ∈ p.1.ext})
    {S T : CrossSection} (hS : S = plateSection shapes bars (polygonal stress u) u) (hT : T = plateSection shapes bars g u) (e : Fin 3 → ℝ)
    (he : T.Admissible e) : |S.forces e 0 - T.forces e 0| ≤ d * grossArea shapes ∧
      ∀ th R, (∀ p ∈ shapes, ∀ x ∈ p.2, |height th x| ≤ R) →
        |bendingMoment th (S.forces e) - bendingMoment th (T.forces e)| ≤ R * (d * grossArea shapes) := by
  subst hS hT
  have hcl : Measurable fun e : ℝ => max e (-u) := measurable_id.max measurable_const
  have hae : (plateSection shapes bars (polygonal stress u) u).Admissible e := (plate_admissible _ _ e).1 he
  obtain ⟨c1, -, c3⟩ := plate_near (bars := bars) (g := fun e => g (max e (-u))) (δ := d) (measurable_polygonal stress u)
    (h.measurable.comp hcl) (polygonal_bounded hu h.compression) (fun e => h.bounds _ (le_max_right _ _)) henc hull
    (fun x hx => by simpa only [max_eq_left hx] using h.near x hx) hae
  have e1 := plate_congr (bars := bars) (f := fun e => g (max e (-u))) (g := g) henc hull (fun x hx => by simp only [max_eq_left hx])
    ((plate_admissible _ _ e).1 he)
  rw [e1] at c1 c3
  exact ⟨c1, c3⟩

/-- **C88** (N-M domain, laws replaced by ten straight pieces: Sargin's, Popovics', the parabola with an exponent other than two;
partial: as `C88_bilinear_partial`, and up to the error of the pieces). The points are the forces `S` of the profiles with the straight
pieces, within `d` times the area (times the distance) of those of the exact diagram `g`. -/
theorem C88_pieces_partial (lu : Matrix (Fin 3) (Fin 3) ℝ → (Fin 3 → ℝ) → (Fin 3 → ℝ)) {stress : ℝ → ℝ} {ult : Bool → ℝ × ℝ}
    {g : ℝ → ℝ} {u e0 fc Lc d : ℝ} (h : Pieces stress ult g u fc Lc d) (hpeak : ult true = (-e0, 100))
    (hS : DomainStrains bars e0 u ey eu)
    (henc : ∀ p ∈ shapes, Encloses p.1.ext p.1.ints p.2) (hull : ∀ p ∈ shapes, p.2 ⊆ convexHull ℝ {v | v ∈ p.1.ext})
    (hcut : CutsExactly split th shapes)
    (hdir : RCSide th (e0 / u) shapes (bars.map fun b => (b.x, b.y)) lo hi) (complete : Bool) {lo' hi' : ℝ}
    (hdir' : complete = true → RCSide (th + Real.pi) (e0 / u) shapes (bars.map fun b => (b.x, b.y)) lo' hi')
    {num : Fin 6 → ℤ} {ty : Fin 6 → Spacing} (ha : ProfileArgs num ty)
    {E : Engine} (hE : E = sectionEngine split ((softParts stress ult u shapes).map PolyPart.solid) bars ms)
    {S T : CrossSection} (hSe : S = plateSection shapes bars (polygonal stress u) u) (hT : T = plateSection shapes bars g u)
    (ops : List Op) (hops : Undisturbed E lu ops .fresh) :
    ∃ planes labels,
      nmProfiles E.balanced (sectionMinY (shapes.map Prod.fst)) true th num ty complete = .ok (planes, labels) ∧
      (nmDomain E ((nmProfiles E.balanced (sectionMinY (shapes.map Prod.fst)) true th num ty complete).map Prod.fst)
        (history E lu ops .fresh)).2 = .ok (planes.map fun v => .forces (S.forces v)) ∧
      planes.length = (∑ i, num i).toNat + (if complete then (∑ i, num i).toNat - 2 else 0) ∧
      (∀ v ∈ planes, T.Admissible v ∧ |S.forces v 0 - T.forces v 0| ≤ d * grossArea shapes ∧
        ∀ a R, (∀ p ∈ shapes, ∀ x ∈ p.2, |height a x| ≤ R) →
          |bendingMoment a (S.forces v) - bendingMoment a (T.forces v)| ≤ R * (d * grossArea shapes)) ∧
      (∀ q ∈ planes.zip labels, q.2 ≤ 5 → T.AtLimit q.1) ∧
      (ty 0 = .linear → 1 ≤ num 0 → planes.head? = some ![eu, 0, 0]) ∧
      (complete = false → planes.getLast? = some ![-e0, 0, 0]) := by
  have hs : (softParts stress ult u shapes).map PolyPart.solid = lawSolids (UserDefined.mk (nodes stress u) (-u) 0).marin
      (UserDefined.mk (nodes stress u) (-u) 0).marinT (polygonal stress u) true ult shapes := by
    simp only [softParts, lawSolids, List.map_map, Function.comp_def]
    rfl
  rw [hs] at hE
  have hu0 : 0 < u := lt_of_lt_of_le (by norm_num) hS.crushing.1
  obtain ⟨planes, labels, h1, h2, h3, h4, h5, h6⟩ := law_nm (ms := ms) (polygonal_exact stress (le_trans (by norm_num) hS.crushing.1))
    (hS.kept (Or.inr rfl)) ⟨h.limits, hpeak⟩ hS henc hull hcut hdir complete hdir' ha lu hE hSe ops hops
  refine ⟨planes, labels, h1, h2, h3, fun v hv => ?_, fun q hq h => ?_, h6⟩
  · have had : T.Admissible v := by rw [hT]; exact (plate_admissible _ _ v).1 (hSe ▸ h4 v hv)
    exact ⟨had, pieces_near h hu0 henc hull hSe hT v had⟩
  · rw [hT]; exact (plate_limit _ _ _).1 (hSe ▸ h5 q hq h)

/-- **C88** (N-My-Mz domain, laws replaced by ten straight pieces; partial: as `C88_pieces_partial`). -/
theorem C88_pieces_nmm_partial (lu : Matrix (Fin 3) (Fin 3) ℝ → (Fin 3 → ℝ) → (Fin 3 → ℝ)) {stress : ℝ → ℝ} {ult : Bool → ℝ × ℝ}
    {g : ℝ → ℝ} {u e0 fc Lc d : ℝ} (h : Pieces stress ult g u fc Lc d) (hpeak : ult true = (-e0, 100))
    (hS : DomainStrains bars e0 u ey eu)
    (henc : ∀ p ∈ shapes, Encloses p.1.ext p.1.ints p.2) (hull : ∀ p ∈ shapes, p.2 ⊆ convexHull ℝ {v | v ∈ p.1.ext})
    (numTheta : ℕ) (hth : 1 ≤ numTheta)
    (hcut : ∀ th ∈ linspace 0 (Real.pi * 2) numTheta true, CutsExactly split th shapes)
    (hdir : ∀ th ∈ linspace 0 (Real.pi * 2) numTheta true, ∃ lo hi, RCSide th (e0 / u) shapes (bars.map fun b => (b.x, b.y)) lo hi)
    {num : Fin 6 → ℤ} {ty : Fin 6 → Spacing} (ha : ProfileArgs num ty)
    {E : Engine} (hE : E = sectionEngine split ((softParts stress ult u shapes).map PolyPart.solid) bars ms)
    {S T : CrossSection} (hSe : S = plateSection shapes bars (polygonal stress u) u) (hT : T = plateSection shapes bars g u)
    (ops : List Op) (hops : Undisturbed E lu ops .fresh) :
    ∃ (chunks : List (List (Fin 3 → ℝ))) (labels : List ℕ),
      nmmProfiles E.balanced (sectionMinY (shapes.map Prod.fst)) true numTheta num ty = .ok (chunks.flatten, labels) ∧
      (nmmDomain E ((nmmProfiles E.balanced (sectionMinY (shapes.map Prod.fst)) true numTheta num ty).map Prod.fst)
        (history E lu ops .fresh)).2 = .ok (chunks.flatten.map fun v => .forces (S.forces v)) ∧
      List.Forall₂ (fun th q =>
        nmProfiles E.balanced (sectionMinY (shapes.map Prod.fst)) true th num ty false = .ok (q, labels) ∧
        (∀ v ∈ q, T.Admissible v ∧ |S.forces v 0 - T.forces v 0| ≤ d * grossArea shapes ∧
          ∀ a R, (∀ p ∈ shapes, ∀ x ∈ p.2, |height a x| ≤ R) →
            |bendingMoment a (S.forces v) - bendingMoment a (T.forces v)| ≤ R * (d * grossArea shapes)) ∧
        ∀ r ∈ q.zip labels, r.2 ≤ 5 → T.AtLimit r.1) (linspace 0 (Real.pi * 2) numTheta true) chunks := by
  have hs : (softParts stress ult u shapes).map PolyPart.solid = lawSolids (UserDefined.mk (nodes stress u) (-u) 0).marin
      (UserDefined.mk (nodes stress u) (-u) 0).marinT (polygonal stress u) true ult shapes := by
    simp only [softParts, lawSolids, List.map_map, Function.comp_def]
    rfl
  rw [hs] at hE
  have hu0 : 0 < u := lt_of_lt_of_le (by norm_num) hS.crushing.1
  obtain ⟨chunks, labels, h1, h2, h3⟩ := law_nmm (ms := ms) (polygonal_exact stress (le_trans (by norm_num) hS.crushing.1))
    (hS.kept (Or.inr rfl)) ⟨h.limits, hpeak⟩ hS henc hull numTheta hth hcut hdir ha lu hE hSe ops hops
  refine ⟨chunks, labels, h1, h2, h3.imp fun t q hq => ⟨hq.1, fun v hv => ?_, fun r hr h => ?_⟩⟩
  · have had : T.Admissible v := by rw [hT]; exact (plate_admissible _ _ v).1 (hSe ▸ hq.2.1 v hv)
    exact ⟨had, pieces_near h hu0 henc hull hSe hT v had⟩
  · rw [hT]; exact (plate_limit _ _ _).1 (hSe ▸ hq.2.2 r hr h)

end Laws

/-! ### From the material objects -/

section Design

variable {lower : String → String}

/-- The limit strains of a section designed with the constructors. -/
theorem design_strains (hl : PyLower lower) (scls : SteelClass) (sa : SteelArgs) (s : Built Steel)
    (hs : newSteel lower scls sa = some (.ok s)) (hsn : sa.law = .name "elasticperfectlyplastic")
    (hsi : sa.initialStrain = none ∧ sa.initialStress = none)
    (hgap : designYield sa + 1e-6 + 1e-5 * designUltimate scls sa ≤ designUltimate scls sa) (hey : 1e-4 ≤ designYield sa)
    (heu : 0.0035 ≤ designUltimate scls sa ∧ designUltimate scls sa ≤ 0.09)
    {bars : List Bar} {id : ℕ} (hbars : ∀ b ∈ bars, b.law = ⟨id, s.mat.law⟩) {e0 u : ℝ} (hu : 1e-3 ≤ u ∧ u ≤ 0.0035)
    (h0 : 1e-4 ≤ e0 ∧ e0 + 2e-6 ≤ u) : DomainStrains bars e0 u (designYield sa) (designUltimate scls sa) := by
  obtain ⟨hult, -, -⟩ := C73_steel hl scls sa s hs hsn hsi.1 hsi.2 hgap
  have hyield := steel_yield hl scls sa s hs hsn hsi.1 hsi.2
  refine ⟨⟨_, hbars, hult, hyield⟩, ⟨hu.1, ?_⟩, h0, ⟨hu.2.trans heu.1, heu.2⟩, hey, ?_⟩
  · have := hu.2; norm_num at *; linarith
  · have := heu.1; norm_num at *; linarith

/-- **C88** (design, bilinear law). From the arguments of the material constructors and the geometry, for concrete up to 90 MPa.
Partial: see `C88_bilinear_partial`. -/
theorem C88_bilinear_design_partial (hl : PyLower lower) (ccls : ConcClass) (hcls : ccls ≠ .ec2_2023) (ca : ConcArgs) (c : Built Conc)
    (hc : newConcrete lower ccls ca = some (.ok c)) (hcn : ca.law = .name "bilinearcompression")
    (hci : ca.initialStrain = none ∧ ca.initialStress = none) (hce : ca.eps_c3 = none ∧ ca.eps_cu3 = none)
    (hcf : |ca.fck| ≤ 90)
    (scls : SteelClass) (sa : SteelArgs) (s : Built Steel)
    (hs : newSteel lower scls sa = some (.ok s)) (hsn : sa.law = .name "elasticperfectlyplastic")
    (hsi : sa.initialStrain = none ∧ sa.initialStress = none)
    (hgap : designYield sa + 1e-6 + 1e-5 * designUltimate scls sa ≤ designUltimate scls sa) (hey : 1e-4 ≤ designYield sa)
    (heu : 0.0035 ≤ designUltimate scls sa ∧ designUltimate scls sa ≤ 0.09)
    (split : Polygon → ℝ → ℝ → ShapelyResult) (ms th : ℝ) (lu : Matrix (Fin 3) (Fin 3) ℝ → (Fin 3 → ℝ) → (Fin 3 → ℝ))
    (shapes : List (Polygon × Set (ℝ × ℝ))) (bars : List Bar) (id : ℕ) (hbars : ∀ b ∈ bars, b.law = ⟨id, s.mat.law⟩)
    (henc : ∀ p ∈ shapes, Encloses p.1.ext p.1.ints p.2) (hull : ∀ p ∈ shapes, p.2 ⊆ convexHull ℝ {v | v ∈ p.1.ext})
    (hcut : CutsExactly split th shapes) {fc e0 u lo hi lo' hi' : ℝ} (hfc : fc = designConcrete ccls ca)
    (he0 : e0 = yieldStrain |ca.fck|) (hu : u = ultimateStrain |ca.fck|)
    (hdir : RCSide th (e0 / u) shapes (bars.map fun b => (b.x, b.y)) lo hi) (complete : Bool)
    (hdir' : complete = true → RCSide (th + Real.pi) (e0 / u) shapes (bars.map fun b => (b.x, b.y)) lo' hi')
    (num : Fin 6 → ℤ) (ty : Fin 6 → Spacing) (ha : ProfileArgs num ty)
    {T : CrossSection} (hT : T = plateSection shapes bars (bilinearDiagram |fc| e0) u) :
    ∃ l, Bilinear.new? fc e0 (some u) = .ok l ∧ c.mat.law = l.law ∧
      ∀ (E : Engine), E = sectionEngine split (bilinearSolids l shapes) bars ms → ∀ ops : List Op, Undisturbed E lu ops .fresh →
      ∃ planes labels,
        nmProfiles E.balanced (sectionMinY (shapes.map Prod.fst)) true th num ty complete = .ok (planes, labels) ∧
        (nmDomain E ((nmProfiles E.balanced (sectionMinY (shapes.map Prod.fst)) true th num ty complete).map Prod.fst)
          (history E lu ops .fresh)).2 = .ok (planes.map fun v => .forces (T.forces v)) ∧
        planes.length = (∑ i, num i).toNat + (if complete then (∑ i, num i).toNat - 2 else 0) ∧
        (∀ v ∈ planes, T.Admissible v) ∧ (∀ q ∈ planes.zip labels, q.2 ≤ 5 → T.AtLimit q.1) ∧
        (ty 0 = .linear → 1 ≤ num 0 → planes.head? = some ![designUltimate scls sa, 0, 0]) ∧
        (complete = false → planes.getLast? = some ![-e0, 0, 0]) := by
  obtain ⟨l, hnew, hlaw⟩ := C85_concrete hl ccls hcls ca c hc hcn hci.1 hci.2 hce.1 hce.2
  rw [← hfc, ← he0, ← hu] at hnew
  refine ⟨l, hnew, hlaw, fun E hE ops hops => ?_⟩
  obtain ⟨r1, r2, r3, r4⟩ := bilinear_ranges hcf
  have r5 : e0 + 2e-6 ≤ u := by
    have : e0 ≤ 0.0025 := by
      rw [he0]
      unfold yieldStrain
      split_ifs
      · norm_num
      · norm_num; linarith
    rw [← hu] at r3
    norm_num at *
    linarith
  rw [← he0] at r1
  rw [← hu] at r3 r4
  have hS := design_strains hl scls sa s hs hsn hsi hgap hey heu hbars (e0 := e0) (u := u) ⟨by norm_num at *; linarith, r4⟩
    ⟨by norm_num at *; linarith, r5⟩
  have q1 : |e0| = e0 := abs_of_pos (by norm_num at *; linarith)
  have q2 : |u| = u := abs_of_pos (by norm_num at *; linarith)
  have := C88_bilinear_partial (ms := ms) lu hnew (by rw [q1, q2]; exact hS) henc hull hcut (by rw [q1, q2]; exact hdir) complete
    (by rw [q1, q2]; exact hdir') ha hE (T := T) (by rw [q1, q2]; exact hT) ops hops
  rw [q1] at this
  exact this

theorem sargin_gap {f : ℝ} (h1 : 12 ≤ f) (h2 : f ≤ 80) : peakStrain (f + 8) + 2e-6 ≤ fractureStrain f := by
  obtain ⟨-, r2, -⟩ := sargin_ranges h1 (by linarith)
  have : 0.0028 + 2e-6 ≤ fractureStrain f := by
    unfold fractureStrain
    split_ifs
    · norm_num
    · have a0 : (0.1:ℝ) ≤ (90 - f) / 100 := by norm_num at *; linarith
      have a1 := pow_le_pow_left₀ (by norm_num) a0 4
      norm_num at *
      linarith
  norm_num at *
  linarith

/-- **C88** (design, Sargin's law). From the arguments of the material constructors and the geometry, for concrete to Eurocode 2 (2004)
from C12 to C80 with the default values of Sargin's law. Partial: see `C88_pieces_partial`. -/
theorem C88_sargin_design_partial (hl : PyLower lower) (ca : ConcArgs) (c : Built Conc)
    (hc : newConcrete lower .ec2_2004 ca = some (.ok c)) (hcn : ca.law = .name "sargin")
    (hci : ca.initialStrain = none ∧ ca.initialStress = none)
    (hce : ca.fcm = none ∧ ca.E = none ∧ ca.eps_c1 = none ∧ ca.eps_cu1 = none ∧ ca.k = none)
    (hcf : 12 ≤ |ca.fck| ∧ |ca.fck| ≤ 80)
    (scls : SteelClass) (sa : SteelArgs) (s : Built Steel)
    (hs : newSteel lower scls sa = some (.ok s)) (hsn : sa.law = .name "elasticperfectlyplastic")
    (hsi : sa.initialStrain = none ∧ sa.initialStress = none)
    (hgap : designYield sa + 1e-6 + 1e-5 * designUltimate scls sa ≤ designUltimate scls sa) (hey : 1e-4 ≤ designYield sa)
    (heu : 0.0035 ≤ designUltimate scls sa ∧ designUltimate scls sa ≤ 0.09)
    (split : Polygon → ℝ → ℝ → ShapelyResult) (ms th : ℝ) (lu : Matrix (Fin 3) (Fin 3) ℝ → (Fin 3 → ℝ) → (Fin 3 → ℝ))
    (shapes : List (Polygon × Set (ℝ × ℝ))) (bars : List Bar) (id : ℕ) (hbars : ∀ b ∈ bars, b.law = ⟨id, s.mat.law⟩)
    (henc : ∀ p ∈ shapes, Encloses p.1.ext p.1.ints p.2) (hull : ∀ p ∈ shapes, p.2 ⊆ convexHull ℝ {v | v ∈ p.1.ext})
    (hcut : CutsExactly split th shapes) {A fc e1 u k m lo hi lo' hi' : ℝ}
    (hfc : fc = |ca.fck| + 8) (he1 : e1 = peakStrain fc) (hu : u = fractureStrain |ca.fck|) (hk : k = plasticity fc)
    (hm : m = min 1 (1 + (k - 2) * (u / e1)))
    (hA : A = fc * ((k - 1) ^ 2 * (u / e1) ^ 2 / (400 * m ^ 3)) * grossArea shapes)
    (hdir : RCSide th (e1 / u) shapes (bars.map fun b => (b.x, b.y)) lo hi) (complete : Bool)
    (hdir' : complete = true → RCSide (th + Real.pi) (e1 / u) shapes (bars.map fun b => (b.x, b.y)) lo' hi')
    (num : Fin 6 → ℤ) (ty : Fin 6 → Spacing) (ha : ProfileArgs num ty)
    {T : CrossSection} (hT : T = plateSection shapes bars (sarginDiagram fc e1 k) u) {parts : List PolyPart}
    (hparts : parts = softParts (Sargin.new fc e1 u k).stress (Sargin.new fc e1 u k).ult u shapes)
    {E : Engine} (hE : E = sectionEngine split (parts.map PolyPart.solid) bars ms)
    (ops : List Op) (hops : Undisturbed E lu ops .fresh) :
    c.mat.law = (Sargin.new fc e1 u k).law ∧
    (∀ p ∈ parts, ∀ a b, (Sargin.new fc e1 u k).marinMethod.call .keyword a b = .ok (p.law.marin a b)) ∧
    ∃ planes labels, ∃ points : List (Fin 3 → ℝ),
      nmProfiles E.balanced (sectionMinY (shapes.map Prod.fst)) true th num ty complete = .ok (planes, labels) ∧
      (nmDomain E ((nmProfiles E.balanced (sectionMinY (shapes.map Prod.fst)) true th num ty complete).map Prod.fst)
        (history E lu ops .fresh)).2 = .ok (points.map .forces) ∧
      planes.length = (∑ i, num i).toNat + (if complete then (∑ i, num i).toNat - 2 else 0) ∧
      List.Forall₂ (fun v r => T.Admissible v ∧ |r 0 - T.forces v 0| ≤ A ∧
        ∀ a R, (∀ p ∈ shapes, ∀ x ∈ p.2, |height a x| ≤ R) → |bendingMoment a r - bendingMoment a (T.forces v)| ≤ R * A) planes points ∧
      (∀ q ∈ planes.zip labels, q.2 ≤ 5 → T.AtLimit q.1) ∧
      (ty 0 = .linear → 1 ≤ num 0 → planes.head? = some ![designUltimate scls sa, 0, 0]) ∧
      (complete = false → planes.getLast? = some ![-e1, 0, 0]) := by
  obtain ⟨q0, q1, q2, q3, q4, q5, q6, q7, q8, -⟩ := sargin_default hcf.1 (by linarith [hcf.2]) hfc he1 hu hk hm
  have q2' : 0 < u := by have := q2.1; norm_num at *; linarith
  have hgap' : e1 + 2e-6 ≤ u := by rw [he1, hu, hfc]; exact sargin_gap hcf.1 hcf.2
  have a1 : |fc| = fc := abs_of_pos q0
  have a2 : |e1| = e1 := abs_of_pos q1
  have a3 : |u| = u := abs_of_pos q2'
  have hu2 : (2e-5:ℝ) ≤ |u| := by rw [a3]; have := q2.1; norm_num at *; linarith
  have hm0 : 0 < m := by norm_num at *; linarith
  refine ⟨by rw [C86_concrete hl ca c hc hcn hci.1 hci.2 hce, hk, he1, hu, hfc], ?_, ?_⟩
  · intro p hp a b
    have := sargin_marin (fc := fc) (e1 := e1) (u := u) (k := k) (shapes := shapes) (p := p) (by rw [a2]; exact q1) hu2 q3
      (by rw [a2, a3]; exact q4) q0.ne' (by rw [a1, a2, a3]; exact q8) (by rw [a3, ← hparts]; exact hp) a b
    exact this
  have hP := sargin_pieces (fc := fc) (e1 := e1) (u := u) (k := k) (m := m) (by rw [a2]; exact q1) hu2 q3 (by rw [a2, a3]; exact q4) hm0 q6
    (by rw [a2, a3]; exact q7)
  have hS := design_strains hl scls sa s hs hsn hsi hgap hey heu hbars (e0 := e1) (u := u) q2
    ⟨by
      have := (sargin_ranges hcf.1 (by linarith [hcf.2])).1
      rw [← hfc, ← he1] at this
      norm_num at *; linarith, hgap'⟩
  rw [a3] at hP
  rw [hparts] at hE
  obtain ⟨planes, labels, h1, h2, h3, h4, h5, h6⟩ := C88_pieces_partial (ms := ms) lu hP (e0 := e1) (by
      show ((-|e1|, 100) : ℝ × ℝ) = _
      rw [a2]) hS henc hull hcut hdir complete hdir' ha hE rfl (T := T) (by rw [a1, a2] ; exact hT) ops hops
  refine ⟨planes, labels, planes.map (plateSection shapes bars (polygonal (Sargin.new fc e1 u k).stress u) u).forces, h1, ?_, h3, ?_, h5, h6⟩
  · rw [h2, List.map_map]; rfl
  · rw [List.forall₂_map_right_iff, List.forall₂_same]
    intro v hv
    have := h4 v hv
    rw [sarginError, a1, a2, a3, ← hA] at this
    exact this

end Design

end SC
