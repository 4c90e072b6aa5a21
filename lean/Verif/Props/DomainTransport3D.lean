import Verif.Props.DomainTransportExample

/-! # C72, C90: the N-My-Mz domain of scaled and shifted sections -/

set_option autoImplicit false

namespace SC

open Spec MeasureTheory

theorem nmmLoop_transport {bal bal' : ℝ → Bool → Except PyErr (ℝ × ℝ × (Fin 3 → ℝ))} {minY minY' : ℝ → ℝ} {rc : Bool}
    {num : Fin 6 → ℤ} {ty : Fin 6 → Spacing} {φ : (Fin 3 → ℝ) → Fin 3 → ℝ} (ths : List ℝ)
    (h : ∀ th ∈ ths, ultimateProfiles (bal' (-th)) (minY' (-th)) rc th num ty =
      (ultimateProfiles (bal (-th)) (minY (-th)) rc th num ty).map fun r => (r.1.map φ, r.2)) :
    ∀ acc k, nmmLoop bal' minY' rc num ty ths (acc.map φ) k = (nmmLoop bal minY rc num ty ths acc k).map fun r => (r.1.map φ, r.2) := by
  induction ths with
  | nil => intro acc k; rfl
  | cons th rest ih =>
    intro acc k
    simp only [nmmLoop, h th (by simp)]
    rcases ultimateProfiles (bal (-th)) (minY (-th)) rc th num ty with e | ⟨q, l⟩
    · rfl
    · have := ih (fun t ht => h t (by simp [ht])) (acc ++ q) (some l)
      rw [List.map_append] at this
      exact this

theorem nmm_transport {bal bal' : ℝ → Bool → Except PyErr (ℝ × ℝ × (Fin 3 → ℝ))} {minY minY' : ℝ → ℝ} {rc : Bool} {n : ℕ}
    {num : Fin 6 → ℤ} {ty : Fin 6 → Spacing} {φ : (Fin 3 → ℝ) → Fin 3 → ℝ}
    (h : ∀ th ∈ linspace 0 (Real.pi * 2) n true, ultimateProfiles (bal' (-th)) (minY' (-th)) rc th num ty =
      (ultimateProfiles (bal (-th)) (minY (-th)) rc th num ty).map fun r => (r.1.map φ, r.2)) :
    nmmProfiles bal' minY' rc n num ty = (nmmProfiles bal minY rc n num ty).map fun r => (r.1.map φ, r.2) := by
  have := nmmLoop_transport _ h [] none
  rw [List.map_nil] at this
  simp only [nmmProfiles, this]
  rcases nmmLoop bal minY rc num ty (linspace 0 (Real.pi * 2) n true) [] none with e | ⟨s, _ | k⟩ <;> rfl

/-- One section: the points of its N-My-Mz domain are the forces of the profiles. -/
theorem directions_domain {fc eu ey ms : ℝ} {split : Polygon → ℝ → ℝ → ShapelyResult}
    {shapes : List (Polygon × Set (ℝ × ℝ))} {bars : List Bar} {L : LawObj} {numTheta : ℕ} (hth : 1 ≤ numTheta)
    (h : ∀ th ∈ linspace 0 (Real.pi * 2) numTheta true, ∃ lo hi, RCDirection th shapes (bars.map fun b => (b.x, b.y)) lo hi)
    (hb : ∀ b ∈ bars, b.law = L) (hu : L.law.ult false = (-eu, eu))
    (hy : (L.law.ult true).2 = ey) (heu : 0.0035 ≤ eu) (heu' : eu ≤ 0.09) (hey : 1e-4 ≤ ey) (hey' : ey ≤ eu)
    (henc : ∀ p ∈ shapes, Encloses p.1.ext p.1.ints p.2) (hull : ∀ p ∈ shapes, p.2 ⊆ convexHull ℝ {v | v ∈ p.1.ext})
    (hcut : ∀ th ∈ linspace 0 (Real.pi * 2) numTheta true, CutsExactly split th shapes)
    {num : Fin 6 → ℤ} {ty : Fin 6 → Spacing} (ha : ProfileArgs num ty)
    (E : Engine) (hE : E = sectionEngine split ((normalParts fc shapes).map ConcretePart.solid) bars ms)
    (lu : Matrix (Fin 3) (Fin 3) ℝ → (Fin 3 → ℝ) → (Fin 3 → ℝ)) :
    ∃ planes labels, nmmProfiles E.balanced (sectionMinY (shapes.map Prod.fst)) true numTheta num ty = .ok (planes, labels) ∧
      ∀ ops, Undisturbed E lu ops .fresh →
        (nmmDomain E ((nmmProfiles E.balanced (sectionMinY (shapes.map Prod.fst)) true numTheta num ty).map Prod.fst)
          (history E lu ops .fresh)).2 = .ok (planes.map fun v => .forces ((concreteSection (normalParts fc shapes) bars).forces v)) := by
  have hpoly : shapes.map Prod.fst = (normalParts fc shapes).map ConcretePart.polygon := by
    simp only [normalParts, List.map_map, Function.comp_def]
  rw [hpoly]
  subst hE
  have hdata := fun th hth => (Classical.choose_spec (Classical.choose_spec (h th hth))).profiles (fc := fc) (ms := ms) hb hu hy
    heu heu' hey hey' henc hull (hcut th hth) ha
  have hne : linspace 0 (Real.pi * 2) numTheta true ≠ [] := by
    intro h0
    have := congrArg List.length h0
    simp [linspace] at this
    omega
  obtain ⟨chunks, hrun, -⟩ := nmmLoop_returns
    (bal := (sectionEngine split ((normalParts fc shapes).map ConcretePart.solid) bars ms).balanced)
    (minY := sectionMinY ((normalParts fc shapes).map ConcretePart.polygon)) (rc := true) (num := num) (ty := ty)
    (P := fun _ _ => True) (ths := linspace 0 (Real.pi * 2) numTheta true)
    (k0 := (List.finRange 6).flatMap fun i => List.replicate (num i).toNat (i.val + 1)) (by
      intro th hth
      obtain ⟨-, -, q, k, h1, -⟩ := hdata th hth
      obtain ⟨-, -, -, -, -, rfl⟩ := ultimateProfiles_ok h1
      exact ⟨q, h1, trivial⟩) [] none (Or.inr hne)
  have hprof : nmmProfiles (sectionEngine split ((normalParts fc shapes).map ConcretePart.solid) bars ms).balanced
      (sectionMinY ((normalParts fc shapes).map ConcretePart.polygon)) true numTheta num ty =
      .ok (chunks.flatten, (List.finRange 6).flatMap fun i => List.replicate (num i).toNat (i.val + 1)) := by
    simp only [nmmProfiles, hrun, List.nil_append]
  have hok := fun th hth => (hdata th hth).2.1
  obtain ⟨t0, ht0⟩ := List.exists_mem_of_ne_nil _ hne
  refine ⟨chunks.flatten, _, hprof, fun ops hops => ?_⟩
  refine (C67_nmm_partial split _ bars ms lu ops hops (single_ids hb) (single_sizes hb) (fun p hp =>
    ⟨(hok t0 ht0 p hp).encloses, (hok t0 ht0 p hp).inHull, (hok t0 ht0 p hp).peak, (hok t0 ht0 p hp).plateau⟩) true num ty numTheta hprof
    (fun th hth => ?_) ?_).2
  · obtain ⟨⟨yp, ho⟩, -⟩ := hdata th hth
    exact ⟨_, _, _, _, _, _, ho⟩
  · intro p hp th hth v h1 h2
    obtain ⟨r, hr, rfl⟩ := List.mem_map.1 hp
    exact hcut th hth r hr _ (neutral_direction h1 h2)

/-- **C90** (N-My-Mz domain; partial: as `C67_design_partial`). The domain of the scaled section consists of exactly the scaled points, in
the same order. -/
theorem C90_nmm_partial {fc eu ey : ℝ} {L L' : LawObj} (s : Scale)
    (hu : L.law.ult false = (-eu, eu)) (hu' : L'.law.ult false = (-eu, eu)) (hy : (L.law.ult true).2 = ey)
    (hy' : (L'.law.ult true).2 = ey) (hstress : ∀ e, L'.law.stress e = s.stress * L.law.stress e)
    (heu : 0.0035 ≤ eu) (heu' : eu ≤ 0.09) (hey : 1e-4 ≤ ey) (hey' : ey ≤ eu)
    (split split' : Polygon → ℝ → ℝ → ShapelyResult) (ms ms' : ℝ) (lu lu' : Matrix (Fin 3) (Fin 3) ℝ → (Fin 3 → ℝ) → (Fin 3 → ℝ))
    (shapes : List (Polygon × Set (ℝ × ℝ))) (bars : List Bar) (hbars : ∀ b ∈ bars, b.law = L)
    (henc : ∀ p ∈ shapes, Encloses p.1.ext p.1.ints p.2) (hull : ∀ p ∈ shapes, p.2 ⊆ convexHull ℝ {v | v ∈ p.1.ext})
    (numTheta : ℕ) (hth : 1 ≤ numTheta)
    (hcut : ∀ th ∈ linspace 0 (Real.pi * 2) numTheta true, CutsExactly split th shapes)
    (hcut' : ∀ th ∈ linspace 0 (Real.pi * 2) numTheta true, CutsExactly split' th (shapes.map (scaledShape s)))
    (hdir : ∀ th ∈ linspace 0 (Real.pi * 2) numTheta true, ∃ lo hi, RCDirection th shapes (bars.map fun b => (b.x, b.y)) lo hi ∧
      (1e-3 ≤ s.len * (hi - lo) ∧ s.len * (hi - lo) ≤ 1e9) ∧ s.len * lo ≤ 1e16)
    (num : Fin 6 → ℤ) (ty : Fin 6 → Spacing) (hnum : ProfileArgs num ty)
    (S : CrossSection) (hS : S = concreteSection (normalParts fc shapes) bars)
    (E E' : Engine) (hE : E = sectionEngine split ((normalParts fc shapes).map ConcretePart.solid) bars ms)
    (hE' : E' = sectionEngine split' ((normalParts (s.stress * fc) (shapes.map (scaledShape s))).map ConcretePart.solid)
      (bars.map fun b => ⟨s.len * b.x, s.len * b.y, s.len ^ 2 * b.area, L'⟩) ms')
    (ops ops' : List Op) (hops : Undisturbed E lu ops .fresh) (hops' : Undisturbed E' lu' ops' .fresh) :
    ∃ planes labels,
      nmmProfiles E.balanced (sectionMinY (shapes.map Prod.fst)) true numTheta num ty = .ok (planes, labels) ∧
      nmmProfiles E'.balanced (sectionMinY ((shapes.map (scaledShape s)).map Prod.fst)) true numTheta num ty =
        .ok (planes.map s.plane, labels) ∧
      (nmmDomain E ((nmmProfiles E.balanced (sectionMinY (shapes.map Prod.fst)) true numTheta num ty).map Prod.fst)
        (history E lu ops .fresh)).2 = .ok (planes.map fun v => .forces (S.forces v)) ∧
      (nmmDomain E' ((nmmProfiles E'.balanced (sectionMinY ((shapes.map (scaledShape s)).map Prod.fst)) true numTheta num ty).map Prod.fst)
        (history E' lu' ops' .fresh)).2 = .ok (planes.map fun v => .forces (s.forces (S.forces v))) := by
  set bars' : List Bar := bars.map fun b => ⟨s.len * b.x, s.len * b.y, s.len ^ 2 * b.area, L'⟩ with hbd
  have hb' : ∀ b ∈ bars', b.law = L' := by
    intro b hb
    obtain ⟨b, -, rfl⟩ := List.mem_map.1 hb
    rfl
  have hf2 : List.Forall₂ (Bar.ScaledTo s) bars bars' := by
    rw [hbd, List.forall₂_map_right_iff, List.forall₂_same]
    exact fun b hb => ⟨rfl, rfl, rfl, fun e => by rw [hbars b hb]; exact hstress e, by rw [hbars b hb, hu]; exact hu'⟩
  have hheights : ∀ t, List.Forall₂ (fun b b' : Bar => height t (b'.x, b'.y) = s.len * height t (b.x, b.y) + 0) bars bars' := by
    intro t
    rw [hbd, List.forall₂_map_right_iff, List.forall₂_same]
    intro b _
    have := s.height_point t (b.x, b.y)
    simp only [Scale.point] at this
    simp only [this, add_zero]
  have hpts : bars'.map (fun b => (b.x, b.y)) = (bars.map fun b => (b.x, b.y)).map s.point := by
    rw [hbd, List.map_map, List.map_map]
    rfl
  have hmap : ∀ {t l h : ℝ}, RCDirection t shapes (bars.map fun b => (b.x, b.y)) l h → 1e-3 ≤ s.len * (h - l) ∧ s.len * (h - l) ≤ 1e9 →
      s.len * l ≤ 1e16 → RCDirection t (shapes.map (scaledShape s)) (bars'.map fun b => (b.x, b.y)) (s.len * l + 0) (s.len * h + 0) := by
    intro t l h hd h1 h2
    exact hd.mapped s.point (scaledShape s) (fun _ => rfl) s.len_pos (fun x => by rw [s.height_point, add_zero])
      (fun S => (scale_hull s S).subset) hpts h1 (by rw [add_zero]; exact h2)
  have henc' : ∀ p ∈ shapes.map (scaledShape s), Encloses p.1.ext p.1.ints p.2 := by
    intro p hp
    obtain ⟨q, hq, rfl⟩ := List.mem_map.1 hp
    exact encloses_scaled s (henc q hq)
  have hull' : ∀ p ∈ shapes.map (scaledShape s), p.2 ⊆ convexHull ℝ {v | v ∈ p.1.ext} := by
    intro p hp
    obtain ⟨q, hq, rfl⟩ := List.mem_map.1 hp
    have hset : {v | v ∈ q.1.ext.map s.point} = s.point '' {v | v ∈ q.1.ext} := by ext v; simp
    simp only [scaledShape]
    rw [hset, ← scale_hull]
    exact Set.image_mono (hull q hq)
  obtain ⟨planes, labels, hp, hd⟩ := directions_domain (fc := fc) (ms := ms) hth (fun t ht => by
    obtain ⟨l, h, k, -⟩ := hdir t ht
    exact ⟨l, h, k⟩) hbars hu hy heu heu' hey hey' henc hull hcut hnum E hE lu
  obtain ⟨planes', labels', hp', hd'⟩ := directions_domain (fc := s.stress * fc) (ms := ms') hth (fun t ht => by
    obtain ⟨l, h, k, k1, k2⟩ := hdir t ht
    exact ⟨_, _, hmap k k1 k2⟩) hb' hu' hy' heu heu' hey hey' henc' hull' hcut' hnum E' hE' lu'
  have ht : nmmProfiles E'.balanced (sectionMinY ((shapes.map (scaledShape s)).map Prod.fst)) true numTheta num ty =
      (nmmProfiles E.balanced (sectionMinY (shapes.map Prod.fst)) true numTheta num ty).map fun r => (r.1.map s.plane, r.2) := by
    refine nmm_transport fun t ht => ?_
    obtain ⟨l, h, k, k1, k2⟩ := hdir t ht
    rw [hE, hE']
    exact directions_transport k (hmap k k1 k2) hbars hb' hu hu' hy hy' heu heu' hey hey' henc hull henc' hull' (hcut t ht) (hcut' t ht)
      s.len_pos (hheights _) num ty s.plane (fun e c => plane_scaled s _ e c)
  have hpl : nmmProfiles E'.balanced (sectionMinY ((shapes.map (scaledShape s)).map Prod.fst)) true numTheta num ty =
      .ok (planes.map s.plane, labels) := by rw [ht, hp]; rfl
  rw [hp'] at hpl
  simp only [Except.ok.injEq, Prod.mk.injEq] at hpl
  refine ⟨planes, labels, hp, by rw [hp', hpl.1, hpl.2], by rw [hS]; exact hd ops hops, ?_⟩
  rw [hd' ops' hops', hpl.1, List.map_map]
  have hparts : normalParts (s.stress * fc) (shapes.map (scaledShape s)) = (normalParts fc shapes).map (ConcretePart.scaled s) := by
    simp only [normalParts, List.map_map]
    rfl
  congr 1
  refine List.map_congr_left fun v _ => ?_
  simp only [Function.comp_apply]
  rw [hparts, concreteSection_scaled s _ hf2, scaled_forces, hS]

/-- **C72** (N-My-Mz domain of a shifted section; partial: as `C67_design_partial`). The domain of the shifted section consists of exactly
the points of the section, in the same order: same axial force, moments increased by the axial force at the shifted place. -/
theorem C72_nmm_partial {fc eu ey : ℝ} {L : LawObj} (m : Motion) (hm : m.angle = 0 ∧ m.mirrored = false)
    (hu : L.law.ult false = (-eu, eu)) (hy : (L.law.ult true).2 = ey)
    (heu : 0.0035 ≤ eu) (heu' : eu ≤ 0.09) (hey : 1e-4 ≤ ey) (hey' : ey ≤ eu)
    (split split' : Polygon → ℝ → ℝ → ShapelyResult) (ms ms' : ℝ) (lu lu' : Matrix (Fin 3) (Fin 3) ℝ → (Fin 3 → ℝ) → (Fin 3 → ℝ))
    (shapes : List (Polygon × Set (ℝ × ℝ))) (bars : List Bar) (hbars : ∀ b ∈ bars, b.law = L)
    (henc : ∀ p ∈ shapes, Encloses p.1.ext p.1.ints p.2) (hull : ∀ p ∈ shapes, p.2 ⊆ convexHull ℝ {v | v ∈ p.1.ext})
    (numTheta : ℕ) (hth : 1 ≤ numTheta)
    (hcut : ∀ th ∈ linspace 0 (Real.pi * 2) numTheta true, CutsExactly split th shapes)
    (hcut' : ∀ th ∈ linspace 0 (Real.pi * 2) numTheta true, CutsExactly split' th (shapes.map (movedShape m)))
    (hdir : ∀ th ∈ linspace 0 (Real.pi * 2) numTheta true, ∃ lo hi, RCDirection th shapes (bars.map fun b => (b.x, b.y)) lo hi ∧
      lo + height th m.shift ≤ 1e16)
    (num : Fin 6 → ℤ) (ty : Fin 6 → Spacing) (hnum : ProfileArgs num ty)
    (S : CrossSection) (hS : S = concreteSection (normalParts fc shapes) bars)
    (E E' : Engine) (hE : E = sectionEngine split ((normalParts fc shapes).map ConcretePart.solid) bars ms)
    (hE' : E' = sectionEngine split' ((normalParts fc (shapes.map (movedShape m))).map ConcretePart.solid) (bars.map (Bar.moved m)) ms')
    (ops ops' : List Op) (hops : Undisturbed E lu ops .fresh) (hops' : Undisturbed E' lu' ops' .fresh) :
    ∃ planes labels,
      nmmProfiles E.balanced (sectionMinY (shapes.map Prod.fst)) true numTheta num ty = .ok (planes, labels) ∧
      (nmmDomain E ((nmmProfiles E.balanced (sectionMinY (shapes.map Prod.fst)) true numTheta num ty).map Prod.fst)
        (history E lu ops .fresh)).2 = .ok (planes.map fun v => .forces (S.forces v)) ∧
      (nmmDomain E' ((nmmProfiles E'.balanced (sectionMinY ((shapes.map (movedShape m)).map Prod.fst)) true numTheta num ty).map Prod.fst)
        (history E' lu' ops' .fresh)).2 = .ok (planes.map fun v => .forces ![S.forces v 0, S.forces v 1 + S.forces v 0 * m.shift.2,
          S.forces v 2 - S.forces v 0 * m.shift.1]) := by
  have hincl : ∀ th, m.inclination th = th := by
    intro th
    simp [Motion.inclination, Motion.sign, hm.1, hm.2]
  have hforces : ∀ F : Fin 3 → ℝ, m.forces F = ![F 0, F 1 + F 0 * m.shift.2, F 2 - F 0 * m.shift.1] := by
    intro F
    simp [Motion.forces, Motion.turn, Motion.sign, hm.1, hm.2]
  have g : ∀ th x, height th (m.point x) = 1 * height th x + height th m.shift := by
    intro th x
    have := m.height_point th x
    rw [hincl] at this
    rw [this, one_mul]
  have hb' : ∀ b ∈ bars.map (Bar.moved m), b.law = L := by
    intro b hb
    obtain ⟨b, hb1, rfl⟩ := List.mem_map.1 hb
    exact hbars b hb1
  have hheights : ∀ t, List.Forall₂ (fun b b' : Bar => height t (b'.x, b'.y) = 1 * height t (b.x, b.y) + height t m.shift)
      bars (bars.map (Bar.moved m)) := by
    intro t
    rw [List.forall₂_map_right_iff, List.forall₂_same]
    intro b _
    exact g t (b.x, b.y)
  have hpts : (bars.map (Bar.moved m)).map (fun b => (b.x, b.y)) = (bars.map fun b => (b.x, b.y)).map m.point := by
    rw [List.map_map, List.map_map]
    rfl
  have hmap : ∀ {t l h : ℝ}, RCDirection t shapes (bars.map fun b => (b.x, b.y)) l h → l + height t m.shift ≤ 1e16 →
      RCDirection t (shapes.map (movedShape m)) ((bars.map (Bar.moved m)).map fun b => (b.x, b.y)) (1 * l + height t m.shift)
        (1 * h + height t m.shift) := by
    intro t l h hd h2
    exact hd.mapped m.point (movedShape m) (fun _ => rfl) one_pos (g t) (hull_moved m) hpts (by rw [one_mul]; exact hd.size)
      (by rw [one_mul]; exact h2)
  have henc' : ∀ p ∈ shapes.map (movedShape m), Encloses p.1.ext p.1.ints p.2 := by
    intro p hp
    obtain ⟨q, hq, rfl⟩ := List.mem_map.1 hp
    exact encloses_moved m (henc q hq)
  have hull' : ∀ p ∈ shapes.map (movedShape m), p.2 ⊆ convexHull ℝ {v | v ∈ p.1.ext} := by
    intro p hp
    obtain ⟨q, hq, rfl⟩ := List.mem_map.1 hp
    have hset : {v | v ∈ q.1.ext.map m.point} = m.point '' {v | v ∈ q.1.ext} := by ext v; simp
    simp only [movedShape]
    rw [hset]
    exact (Set.image_mono (hull q hq)).trans (hull_moved m _)
  obtain ⟨planes, labels, hp, hd⟩ := directions_domain (fc := fc) (ms := ms) hth (fun t ht => by
    obtain ⟨l, h, k, -⟩ := hdir t ht
    exact ⟨l, h, k⟩) hbars hu hy heu heu' hey hey' henc hull hcut hnum E hE lu
  obtain ⟨planes', labels', hp', hd'⟩ := directions_domain (fc := fc) (ms := ms') hth (fun t ht => by
    obtain ⟨l, h, k, k2⟩ := hdir t ht
    exact ⟨_, _, hmap k k2⟩) hb' hu hy heu heu' hey hey' henc' hull' hcut' hnum E' hE' lu'
  have ht : nmmProfiles E'.balanced (sectionMinY ((shapes.map (movedShape m)).map Prod.fst)) true numTheta num ty =
      (nmmProfiles E.balanced (sectionMinY (shapes.map Prod.fst)) true numTheta num ty).map fun r => (r.1.map m.plane, r.2) := by
    refine nmm_transport fun t ht => ?_
    obtain ⟨l, h, k, k2⟩ := hdir t ht
    rw [hE, hE']
    exact directions_transport k (hmap k k2) hbars hb' hu hu hy hy heu heu' hey hey' henc hull henc' hull' (hcut t ht) (hcut' t ht)
      one_pos (hheights _) num ty m.plane (fun e c => by
        have := plane_axis m e c t
        rw [hincl] at this
        rw [this, div_one])
  have hpl : nmmProfiles E'.balanced (sectionMinY ((shapes.map (movedShape m)).map Prod.fst)) true numTheta num ty =
      .ok (planes.map m.plane, labels) := by rw [ht, hp]; rfl
  rw [hp'] at hpl
  simp only [Except.ok.injEq, Prod.mk.injEq] at hpl
  refine ⟨planes, labels, hp, by rw [hS]; exact hd ops hops, ?_⟩
  rw [hd' ops' hops', hpl.1, List.map_map]
  have hparts : normalParts fc (shapes.map (movedShape m)) = (normalParts fc shapes).map (ConcretePart.moved m) := by
    simp only [normalParts, List.map_map]
    rfl
  congr 1
  refine List.map_congr_left fun v _ => ?_
  simp only [Function.comp_apply]
  rw [hparts, concreteSection_moved, moved_forces, hS, hforces]
  · intro p hp
    simp only [concreteSection, normalParts, List.map_map, List.mem_map] at hp
    obtain ⟨q, hq, rfl⟩ := hp
    exact (henc q hq).measurable
  · intro p hp i
    simp only [concreteSection, normalParts, List.map_map, List.mem_map] at hp
    obtain ⟨q, hq, rfl⟩ := hp
    refine integrable_law (fc := |fc|) (measurable_parabola _) (fun x => ?_) v (henc q hq).bounded (w := fun x => lever x.1 x.2 i) ?_
    · exact pr_stress_range fc _ _ (by norm_num) x
    · fin_cases i <;> simp only [lever, Matrix.cons_val, Fin.zero_eta, Fin.mk_one, Fin.reduceFinMk] <;> fun_prop

end SC
