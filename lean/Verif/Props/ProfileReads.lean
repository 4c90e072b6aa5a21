import Verif.Props.Profile

/-! # C60: reading the properties of a profile object, in any order -/

set_option autoImplicit false

namespace SC

open MeasureTheory Spec

/-! ### Turning the section -/

theorem rotPt_quarter (v : ℝ × ℝ) : rotPt (Real.pi / 2) v = (-v.2, v.1) := by simp [rotPt]

theorem listMin_unique {l : List ℝ} {m : ℝ} (hm : m ∈ l) (h : ∀ x ∈ l, m ≤ x) : listMin l = m := by
  have hne : l ≠ [] := List.ne_nil_of_mem hm
  exact le_antisymm ((listMin_spec l hne).2 m hm) (h _ (listMin_spec l hne).1)

theorem listMax_unique {l : List ℝ} {m : ℝ} (hm : m ∈ l) (h : ∀ x ∈ l, x ≤ m) : listMax l = m := by
  have hne : l ≠ [] := List.ne_nil_of_mem hm
  exact le_antisymm (h _ (listMax_spec l hne).1) ((listMax_spec l hne).2 m hm)

theorem bounds_quarter {p : Polygon} (h : p.ext ≠ []) :
    (p.rotate (Real.pi / 2)).bounds = (-p.bounds.2.2.2, p.bounds.1, -p.bounds.2.1, p.bounds.2.2.1) := by
  have n2 : p.ext.map Prod.snd ≠ [] := by simpa using h
  have e1 : (p.rotate (Real.pi / 2)).ext.map Prod.fst = (p.ext.map Prod.snd).map (fun x => -x) := by
    simp only [Polygon.rotate, List.map_map]
    exact List.map_congr_left fun v _ => by simp [rotPt_quarter]
  have e2 : (p.rotate (Real.pi / 2)).ext.map Prod.snd = p.ext.map Prod.fst := by
    simp only [Polygon.rotate, List.map_map]
    exact List.map_congr_left fun v _ => by simp [rotPt_quarter]
  have hmin := listMin_spec _ n2
  have hmax := listMax_spec _ n2
  simp only [Polygon.bounds, e1, e2]
  rw [listMin_unique (m := -listMax (p.ext.map Prod.snd)) (List.mem_map_of_mem hmax.1)
    (by
      intro x hx
      obtain ⟨y, hy, rfl⟩ := List.mem_map.1 hx
      exact neg_le_neg (hmax.2 y hy)),
    listMax_unique (m := -listMin (p.ext.map Prod.snd)) (List.mem_map_of_mem hmin.1)
    (by
      intro x hx
      obtain ⟨y, hy, rfl⟩ := List.mem_map.1 hx
      exact neg_le_neg (hmin.2 y hy))]

theorem ProfileShape.quarter {p : Polygon} {R : Set (ℝ × ℝ)} (h : ProfileShape p R) :
    ProfileShape (p.rotate (Real.pi / 2)) (rotPt (Real.pi / 2) '' R) where
  ints := by simp [Polygon.rotate, h.ints]
  encloses := by
    have := encloses_rot (Real.pi / 2) h.encloses
    simpa [Polygon.rotate] using this
  ccw := by
    have hc := (properRing_rot (Real.pi / 2) h.encloses.ext_proper).1
    show 0 < marin (p.ext.map (rotPt (Real.pi / 2))) 0 0
    rw [marin_signed hc, signedArea_rot, ← marin_signed h.encloses.ext_proper.1]
    exact h.ccw
  box := by
    rw [bounds_quarter h.ne]
    rintro _ ⟨x, hx, rfl⟩
    have hb := h.box x hx
    rw [rotPt_quarter]
    exact ⟨neg_le_neg hb.2.2.2, neg_le_neg hb.2.2.1, hb.1, hb.2.1⟩

theorem absMoment_quarter {R : Set (ℝ × ℝ)} (hR : MeasurableSet R) (y : ℝ) :
    absMoment (rotPt (Real.pi / 2) '' R) y = absMomentY R y := by
  unfold absMoment absMomentY
  rw [integral_rot _ hR]
  simp [rotPt_quarter]

theorem imbalance_quarter {R : Set (ℝ × ℝ)} (hR : MeasurableSet R) (y : ℝ) :
    imbalance (rotPt (Real.pi / 2) '' R) y = imbalanceY R y := by
  have e : ∀ S : Set (ℝ × ℝ), MeasurableSet S →
      (volume (rotPt (Real.pi / 2) '' S)).toReal = (volume S).toReal := by
    intro S hS
    have := integral_rot (Real.pi / 2) hS (fun _ => (1 : ℝ))
    simpa [Measure.real] using this
  have hi := rotPt_injective (Real.pi / 2)
  have e1 : rotPt (Real.pi / 2) '' R ∩ {x | y ≤ x.2} = rotPt (Real.pi / 2) '' (R ∩ {x | y ≤ x.1}) := by
    ext v
    constructor
    · rintro ⟨⟨x, hx, rfl⟩, hv⟩
      exact ⟨x, ⟨hx, by simpa [rotPt_quarter] using hv⟩, rfl⟩
    · rintro ⟨x, ⟨hx, hx2⟩, rfl⟩
      exact ⟨⟨x, hx, rfl⟩, by simpa [rotPt_quarter] using hx2⟩
  have e2 : rotPt (Real.pi / 2) '' R ∩ {x | x.2 ≤ y} = rotPt (Real.pi / 2) '' (R ∩ {x | x.1 ≤ y}) := by
    ext v
    constructor
    · rintro ⟨⟨x, hx, rfl⟩, hv⟩
      exact ⟨x, ⟨hx, by simpa [rotPt_quarter] using hv⟩, rfl⟩
    · rintro ⟨x, ⟨hx, hx2⟩, rfl⟩
      exact ⟨⟨x, hx, rfl⟩, by simpa [rotPt_quarter] using hx2⟩
  unfold imbalance imbalanceY
  rw [e1, e2, e _ (hR.inter (measurableSet_le measurable_const measurable_fst)),
    e _ (hR.inter (measurableSet_le measurable_fst measurable_const))]

theorem rotate_back (p : Polygon) : (p.rotate (Real.pi / 2)).rotate (-(Real.pi / 2)) = p := by
  have e : ∀ r : List (ℝ × ℝ), (r.map (rotPt (Real.pi / 2))).map (rotPt (-(Real.pi / 2))) = r := by
    intro r
    rw [List.map_map]
    conv_rhs => rw [← List.map_id r]
    apply List.map_congr_left
    intro v _
    simp [rotPt]
  cases p with
  | mk ext ints =>
    simp only [Polygon.rotate, e, List.map_map, Polygon.mk.injEq, true_and]
    conv_rhs => rw [← List.map_id ints]
    apply List.map_congr_left
    intro r _
    exact e r

/-! ### The object -/

theorem ProfM.bind_ok {α β : Type} {m : ProfM α} {f : α → ProfM β} {s s' : Profile} {a : α}
    (h : m s = (s', .ok a)) : (m >>= f) s = f a s' := by
  show (match m s with
    | (s', Except.error e) => ((s', Except.error e) : Profile × Except PyErr β)
    | (s', Except.ok a) => f a s') = _
  rw [h]

/-- The value a cache holds. -/
def Profile.cache (s : Profile) : Attr → Option ℝ
  | .A => s.A
  | .Iy => s.Iy
  | .Iz => s.Iz
  | .Iyz => s.Iyz
  | .Icsi => s.Icsi
  | .Ieta => s.Ieta
  | .theta => s.theta
  | .Wely => s.Wely
  | .Welz => s.Welz
  | .Wply => s.Wply
  | .Wplz => s.Wplz
  | .iy => s.iy
  | .iz => s.iz

/-- `T` are the values computed from the polygon `p`. -/
structure Values (sh : Shapely) (eig : ℝ → ℝ → ℝ → Eig) (p : Polygon) (T : Attr → ℝ) : Prop where
  A : T .A = marin p.ext 0 0
  Iy : T .Iy = marin p.ext 0 2
  Iz : T .Iz = marin p.ext 2 0
  Iyz : T .Iyz = marin p.ext 1 1
  principal : findPrincipal eig (T .Iy) (T .Iz) (T .Iyz) = (T .Icsi, T .Ieta, T .theta)
  Wely : pyDiv (T .Iy) (max |p.bounds.2.1| p.bounds.2.2.2) = .ok (T .Wely)
  Welz : pyDiv (T .Iz) (max |p.bounds.1| p.bounds.2.2.1) = .ok (T .Welz)
  Wply : plasticModulus sh p (max |p.bounds.1| p.bounds.2.2.1) = .ok (T .Wply)
  Wplz : plasticModulus sh (p.rotate (Real.pi / 2)) (max |p.bounds.2.1| p.bounds.2.2.2) = .ok (T .Wplz)
  iy : ∃ q, pyDiv (T .Iy) (T .A) = .ok q ∧ q ^ (0.5 : ℝ) = T .iy
  iz : ∃ q, pyDiv (T .Iz) (T .A) = .ok q ∧ q ^ (0.5 : ℝ) = T .iz

/-- States reached by reads: the polygon is the original one, every cache is empty or right, and the three
principal values are stored together. -/
structure Good (p : Polygon) (T : Attr → ℝ) (s : Profile) : Prop where
  polygon : s.polygon = some p
  right : ∀ a v, s.cache a = some v → v = T a
  eta : s.Ieta.isSome = s.Icsi.isSome
  theta : s.theta.isSome = s.Icsi.isSome

theorem good_fresh (p : Polygon) (T : Attr → ℝ) : Good p T (Profile.fresh p) :=
  ⟨rfl, by intro a v h; cases a <;> simp [Profile.cache, Profile.fresh] at h, rfl, rfl⟩

variable {sh : Shapely} {eig : ℝ → ℝ → ℝ → Eig} {p : Polygon} {T : Attr → ℝ}

/-- Outcome of a read from a good state: the right value, a good state, and the principal values stay (or
become) stored or stay unstored. -/
def ReadOk (p : Polygon) (T : Attr → ℝ) (m : ProfM ℝ) (a : Attr) (keeps : Bool) : Prop :=
  ∀ s, Good p T s → ∃ s', m s = (s', .ok (T a)) ∧ Good p T s' ∧
    s'.Icsi.isSome = (s.Icsi.isSome || !keeps)

theorem good_set {s s' : Profile} (h : Good p T s) (hp : s'.polygon = some p)
    (hc : ∀ a v, s'.cache a = some v → s.cache a = some v ∨ v = T a)
    (he : s'.Ieta.isSome = s'.Icsi.isSome) (ht : s'.theta.isSome = s'.Icsi.isSome) : Good p T s' :=
  ⟨hp, fun a v hv => (hc a v hv).elim (h.right a v) id, he, ht⟩

theorem readA_ok (hv : Values sh eig p T) : ReadOk p T readA .A true := by
  intro s hs
  cases hA : s.A with
  | some v =>
    refine ⟨s, ?_, hs, by simp⟩
    simp only [readA, cached, hA, hs.right .A v hA]
  | none =>
    refine ⟨{ s with A := some (T .A) }, ?_, ?_, by simp⟩
    · simp only [readA, cached, hA, getPolygon, bind, hs.polygon, modify', pure, hv.A]
    · refine good_set hs hs.polygon ?_ hs.eta hs.theta
      intro a v h
      cases a <;> simp_all [Profile.cache]

theorem readIy_ok (hv : Values sh eig p T) : ReadOk p T readIy .Iy true := by
  intro s hs
  cases hA : s.Iy with
  | some v =>
    refine ⟨s, ?_, hs, by simp⟩
    simp only [readIy, cached, hA, hs.right .Iy v hA]
  | none =>
    refine ⟨{ s with Iy := some (T .Iy) }, ?_, ?_, by simp⟩
    · simp only [readIy, cached, hA, getPolygon, bind, hs.polygon, modify', pure, hv.Iy]
    · refine good_set hs hs.polygon ?_ hs.eta hs.theta
      intro a v h
      cases a <;> simp_all [Profile.cache]

theorem readIz_ok (hv : Values sh eig p T) : ReadOk p T readIz .Iz true := by
  intro s hs
  cases hA : s.Iz with
  | some v =>
    refine ⟨s, ?_, hs, by simp⟩
    simp only [readIz, cached, hA, hs.right .Iz v hA]
  | none =>
    refine ⟨{ s with Iz := some (T .Iz) }, ?_, ?_, by simp⟩
    · simp only [readIz, cached, hA, getPolygon, bind, hs.polygon, modify', pure, hv.Iz]
    · refine good_set hs hs.polygon ?_ hs.eta hs.theta
      intro a v h
      cases a <;> simp_all [Profile.cache]

theorem readIyz_ok (hv : Values sh eig p T) : ReadOk p T readIyz .Iyz true := by
  intro s hs
  cases hA : s.Iyz with
  | some v =>
    refine ⟨s, ?_, hs, by simp⟩
    simp only [readIyz, cached, hA, hs.right .Iyz v hA]
  | none =>
    refine ⟨{ s with Iyz := some (T .Iyz) }, ?_, ?_, by simp⟩
    · simp only [readIyz, cached, hA, getPolygon, bind, hs.polygon, modify', pure, hv.Iyz]
    · refine good_set hs hs.polygon ?_ hs.eta hs.theta
      intro a v h
      cases a <;> simp_all [Profile.cache]

theorem principals_ok (hv : Values sh eig p T) (s : Profile) (hs : Good p T s) :
    ∃ s', principals eig s = (s', .ok (T .Icsi, T .Ieta, T .theta)) ∧ Good p T s' ∧ s'.Icsi.isSome = true := by
  obtain ⟨s1, h1, g1, -⟩ := readIy_ok hv s hs
  obtain ⟨s2, h2, g2, -⟩ := readIyz_ok hv s1 g1
  obtain ⟨s3, h3, g3, -⟩ := readIz_ok hv s2 g2
  refine ⟨{ s3 with Icsi := some (T .Icsi), Ieta := some (T .Ieta), theta := some (T .theta) }, ?_, ?_, rfl⟩
  · rw [principals, ProfM.bind_ok h1, ProfM.bind_ok h2, ProfM.bind_ok h3]
    simp only [bind, pure, modify', hv.principal]
  · refine good_set g3 g3.polygon ?_ rfl rfl
    intro a v h
    cases a <;> simp_all [Profile.cache]

theorem readIcsi_ok (hv : Values sh eig p T) : ReadOk p T (readIcsi eig) .Icsi false := by
  intro s hs
  cases hA : s.Icsi with
  | some v =>
    refine ⟨s, ?_, hs, by simp [hA]⟩
    simp only [readIcsi, cached, hA, hs.right .Icsi v hA]
  | none =>
    obtain ⟨s', h1, g1, h2⟩ := principals_ok hv s hs
    refine ⟨s', ?_, g1, by simp [h2]⟩
    simp only [readIcsi, cached, hA]
    rw [ProfM.bind_ok h1]
    rfl

theorem readIeta_ok (hv : Values sh eig p T) : ReadOk p T (readIeta eig) .Ieta false := by
  intro s hs
  cases hA : s.Ieta with
  | some v =>
    have := hs.eta
    refine ⟨s, ?_, hs, by simp [← this, hA]⟩
    simp only [readIeta, cached, hA, hs.right .Ieta v hA]
  | none =>
    obtain ⟨s', h1, g1, h2⟩ := principals_ok hv s hs
    refine ⟨s', ?_, g1, by simp [h2]⟩
    simp only [readIeta, cached, hA]
    rw [ProfM.bind_ok h1]
    rfl

theorem elasticModuli_ok (hv : Values sh eig p T) (s : Profile) (hs : Good p T s) :
    ∃ s', elasticModuli s = (s', .ok (T .Wely, T .Welz)) ∧ Good p T s' ∧ s'.Icsi.isSome = s.Icsi.isSome := by
  obtain ⟨s1, h1, g1, k1⟩ := readIy_ok hv s hs
  have g1' : Good p T { s1 with Wely := some (T .Wely) } := by
    refine good_set g1 g1.polygon ?_ g1.eta g1.theta
    intro a v h
    cases a <;> simp_all [Profile.cache]
  obtain ⟨s2, h2, g2, k2⟩ := readIz_ok hv _ g1'
  refine ⟨{ s2 with Welz := some (T .Welz) }, ?_, ?_, ?_⟩
  · have hp : getPolygon s = (s, .ok p) := by simp only [getPolygon, hs.polygon]
    have hw : ofExcept (pyDiv (T .Iy) (max |p.bounds.2.1| p.bounds.2.2.2)) s1 = (s1, .ok (T .Wely)) := by
      rw [ofExcept, hv.Wely]
    have hm : modify' (fun s => { s with Wely := some (T .Wely) }) s1 =
      ({ s1 with Wely := some (T .Wely) }, .ok ()) := rfl
    have hw2 : ofExcept (pyDiv (T .Iz) (max |p.bounds.1| p.bounds.2.2.1)) s2 = (s2, .ok (T .Welz)) := by
      rw [ofExcept, hv.Welz]
    have hm2 : modify' (fun s => { s with Welz := some (T .Welz) }) s2 =
      ({ s2 with Welz := some (T .Welz) }, .ok ()) := rfl
    rw [elasticModuli, ProfM.bind_ok hp, ProfM.bind_ok h1, ProfM.bind_ok hw, ProfM.bind_ok hm, ProfM.bind_ok h2,
      ProfM.bind_ok hw2, ProfM.bind_ok hm2]
    rfl
  · refine good_set g2 g2.polygon ?_ g2.eta g2.theta
    intro a v h
    cases a <;> simp_all [Profile.cache]
  · simp only [Bool.not_true, Bool.or_false] at k1 k2
    simp only [k2, k1]

theorem readWely_ok (hv : Values sh eig p T) : ReadOk p T readWely .Wely true := by
  intro s hs
  cases hA : s.Wely with
  | some v =>
    refine ⟨s, ?_, hs, by simp⟩
    simp only [readWely, cached, hA, hs.right .Wely v hA]
  | none =>
    obtain ⟨s', h1, g1, h2⟩ := elasticModuli_ok hv s hs
    refine ⟨s', ?_, g1, by simp [h2]⟩
    simp only [readWely, cached, hA]
    rw [ProfM.bind_ok h1]
    rfl

theorem readWelz_ok (hv : Values sh eig p T) : ReadOk p T readWelz .Welz true := by
  intro s hs
  cases hA : s.Welz with
  | some v =>
    refine ⟨s, ?_, hs, by simp⟩
    simp only [readWelz, cached, hA, hs.right .Welz v hA]
  | none =>
    obtain ⟨s', h1, g1, h2⟩ := elasticModuli_ok hv s hs
    refine ⟨s', ?_, g1, by simp [h2]⟩
    simp only [readWelz, cached, hA]
    rw [ProfM.bind_ok h1]
    rfl

theorem readWply_ok (hv : Values sh eig p T) : ReadOk p T (readWply sh) .Wply true := by
  intro s hs
  cases hA : s.Wply with
  | some v =>
    refine ⟨s, ?_, hs, by simp⟩
    simp only [readWply, cached, hA, hs.right .Wply v hA]
  | none =>
    refine ⟨{ s with Wply := some (T .Wply) }, ?_, ?_, by simp⟩
    · simp only [readWply, cached, hA, getPolygon, bind, hs.polygon, modify', pure, ofExcept, hv.Wply]
    · refine good_set hs hs.polygon ?_ hs.eta hs.theta
      intro a v h
      cases a <;> simp_all [Profile.cache]

theorem readWplz_ok (hv : Values sh eig p T) : ReadOk p T (readWplz sh) .Wplz true := by
  intro s hs
  cases hA : s.Wplz with
  | some v =>
    refine ⟨s, ?_, hs, by simp⟩
    simp only [readWplz, cached, hA, hs.right .Wplz v hA]
  | none =>
    refine ⟨{ s with polygon := some p, Wplz := some (T .Wplz) }, ?_, ?_, by simp⟩
    · simp only [readWplz, cached, hA, getPolygon, bind, hs.polygon, modify', pure, ofExcept, hv.Wplz, rotate_back]
    · refine good_set hs rfl ?_ hs.eta hs.theta
      intro a v h
      cases a <;> simp_all [Profile.cache]

theorem readSmallIy_ok (hv : Values sh eig p T) : ReadOk p T readSmallIy .iy true := by
  intro s hs
  have key : ∃ s1, orCompute s.iy (do
      let a ← readIy
      let b ← readA
      let q ← ofExcept (pyDiv a b)
      return q ^ (0.5 : ℝ)) s = (s1, .ok (T .iy)) ∧ Good p T s1 ∧ s1.Icsi.isSome = s.Icsi.isSome := by
    have hc : ∃ s1, (do
      let a ← readIy
      let b ← readA
      let q ← ofExcept (pyDiv a b)
      return q ^ (0.5 : ℝ) : ProfM ℝ) s = (s1, .ok (T .iy)) ∧ Good p T s1 ∧
        s1.Icsi.isSome = s.Icsi.isSome := by
      obtain ⟨s1, h1, g1, k1⟩ := readIy_ok hv s hs
      obtain ⟨s2, h2, g2, k2⟩ := readA_ok hv s1 g1
      obtain ⟨q, hq, hT⟩ := hv.iy
      have ho : ofExcept (pyDiv (T .Iy) (T .A)) s2 = (s2, .ok q) := by rw [ofExcept, hq]
      simp only [Bool.not_true, Bool.or_false] at k1 k2
      refine ⟨s2, ?_, g2, by rw [k2, k1]⟩
      rw [ProfM.bind_ok h1, ProfM.bind_ok h2, ProfM.bind_ok ho, hT]
      rfl
    cases hA : s.iy with
    | some v =>
      simp only [orCompute]
      split_ifs with h0
      · exact ⟨s, by rw [hs.right .iy v hA]; rfl, hs, rfl⟩
      · exact hc
    | none => exact hc
  obtain ⟨s1, h1, g1, k1⟩ := key
  refine ⟨{ s1 with iy := some (T .iy) }, ?_, ?_, by simp [k1]⟩
  · simp only [readSmallIy]
    rw [ProfM.bind_ok h1]
    rfl
  · refine good_set g1 g1.polygon ?_ g1.eta g1.theta
    intro a v h
    cases a <;> simp_all [Profile.cache]

theorem readSmallIz_ok (hv : Values sh eig p T) : ReadOk p T readSmallIz .iz true := by
  intro s hs
  have key : ∃ s1, orCompute s.iz (do
      let a ← readIz
      let b ← readA
      let q ← ofExcept (pyDiv a b)
      return q ^ (0.5 : ℝ)) s = (s1, .ok (T .iz)) ∧ Good p T s1 ∧ s1.Icsi.isSome = s.Icsi.isSome := by
    have hc : ∃ s1, (do
      let a ← readIz
      let b ← readA
      let q ← ofExcept (pyDiv a b)
      return q ^ (0.5 : ℝ) : ProfM ℝ) s = (s1, .ok (T .iz)) ∧ Good p T s1 ∧
        s1.Icsi.isSome = s.Icsi.isSome := by
      obtain ⟨s1, h1, g1, k1⟩ := readIz_ok hv s hs
      obtain ⟨s2, h2, g2, k2⟩ := readA_ok hv s1 g1
      obtain ⟨q, hq, hT⟩ := hv.iz
      have ho : ofExcept (pyDiv (T .Iz) (T .A)) s2 = (s2, .ok q) := by rw [ofExcept, hq]
      simp only [Bool.not_true, Bool.or_false] at k1 k2
      refine ⟨s2, ?_, g2, by rw [k2, k1]⟩
      rw [ProfM.bind_ok h1, ProfM.bind_ok h2, ProfM.bind_ok ho, hT]
      rfl
    cases hA : s.iz with
    | some v =>
      simp only [orCompute]
      split_ifs with h0
      · exact ⟨s, by rw [hs.right .iz v hA]; rfl, hs, rfl⟩
      · exact hc
    | none => exact hc
  obtain ⟨s1, h1, g1, k1⟩ := key
  refine ⟨{ s1 with iz := some (T .iz) }, ?_, ?_, by simp [k1]⟩
  · simp only [readSmallIz]
    rw [ProfM.bind_ok h1]
    rfl
  · refine good_set g1 g1.polygon ?_ g1.eta g1.theta
    intro a v h
    cases a <;> simp_all [Profile.cache]

/-- A read that computes the principal values. -/
def Attr.principal (a : Attr) : Bool := a == .Icsi || a == .Ieta

theorem read_ok (hv : Values sh eig p T) {a : Attr} (ha : a ≠ .theta) :
    ReadOk p T (Profile.read sh eig a) a (!a.principal) := by
  cases a
  case theta => exact absurd rfl ha
  case A => exact readA_ok hv
  case Iy => exact readIy_ok hv
  case Iz => exact readIz_ok hv
  case Iyz => exact readIyz_ok hv
  case Icsi => exact readIcsi_ok hv
  case Ieta => exact readIeta_ok hv
  case Wely => exact readWely_ok hv
  case Welz => exact readWelz_ok hv
  case Wply => exact readWply_ok hv
  case Wplz => exact readWplz_ok hv
  case iy => exact readSmallIy_ok hv
  case iz => exact readSmallIz_ok hv

theorem readTheta_ok {s : Profile} (hs : Good p T s) :
    readTheta s = (s, if s.Icsi.isSome then .ok (T .theta) else .error .attributeError) := by
  have h := hs.theta
  cases ht : s.theta with
  | none => simp [readTheta, ht, ← h]
  | some v => simp [readTheta, ht, ← h, hs.right .theta v ht]

theorem readAll_ok (hv : Values sh eig p T) (l : List Attr) : ∀ s, Good p T s →
    Good p T (readAll sh eig l s).1 ∧
    ∀ i a, l[i]? = some a → (readAll sh eig l s).2[i]? = some
      (if a = .theta ∧ s.Icsi.isSome = false ∧ (l.take i).any Attr.principal = false
        then .error .attributeError else .ok (T a)) := by
  induction l with
  | nil => intro s hs; exact ⟨hs, by simp⟩
  | cons b l ih =>
    intro s hs
    have hstep : ∃ s' r, Profile.read sh eig b s = (s', r) ∧ Good p T s' ∧
        s'.Icsi.isSome = (s.Icsi.isSome || b.principal) ∧
        r = (if b = .theta ∧ s.Icsi.isSome = false then .error .attributeError else .ok (T b)) := by
      by_cases hb : b = .theta
      · subst hb
        refine ⟨s, _, readTheta_ok hs, hs, by simp [Attr.principal], ?_⟩
        cases s.Icsi.isSome <;> simp
      · obtain ⟨s', h1, h2, h3⟩ := read_ok hv hb s hs
        exact ⟨s', _, h1, h2, by simpa using h3, by simp [hb]⟩
    obtain ⟨s', r, h1, h2, h3, h4⟩ := hstep
    obtain ⟨hg, hrest⟩ := ih s' h2
    have e : readAll sh eig (b :: l) s = ((readAll sh eig l s').1, r :: (readAll sh eig l s').2) := by
      simp only [readAll, h1]
    rw [e]
    refine ⟨hg, ?_⟩
    intro i a hi
    cases i with
    | zero =>
      simp only [List.getElem?_cons_zero, Option.some.injEq] at hi
      subst hi
      simp only [List.getElem?_cons_zero, h4, List.take_zero, List.any_nil, and_true]
    | succ i =>
      simp only [List.getElem?_cons_succ] at hi ⊢
      rw [hrest i a hi, h3]
      simp only [List.take_succ_cons, List.any_cons, Bool.or_eq_false_iff, and_assoc]

/-! ### Main theorems -/

/-- The values of the properties of the region `R` with principal moments `I1`, `I2` and angle `th`, extents
`xmax`, `ymax` from the axes and plastic neutral axes at `zp` and `yp`. -/
noncomputable def regionValue (R : Set (ℝ × ℝ)) (I1 I2 th xmax ymax zp yp : ℝ) : Attr → ℝ
  | .A => areaMoment 0 0 R
  | .Iy => areaMoment 0 2 R
  | .Iz => areaMoment 2 0 R
  | .Iyz => areaMoment 1 1 R
  | .Icsi => I1
  | .Ieta => I2
  | .theta => th
  | .Wely => areaMoment 0 2 R / ymax
  | .Welz => areaMoment 2 0 R / xmax
  | .Wply => absMoment R zp
  | .Wplz => absMomentY R yp
  | .iy => Real.sqrt (areaMoment 0 2 R / areaMoment 0 0 R)
  | .iz => Real.sqrt (areaMoment 2 0 R / areaMoment 0 0 R)

/-- An axis at height `z` balances the areas of `R` up to the tolerance of the search, in a section that reaches
from `lo` to `hi`. -/
def NearBalance (D : ℝ → ℝ) (lo hi z : ℝ) : Prop :=
  lo ≤ z ∧ z ≤ hi ∧ (|D z| < 1e-10 ∨ ∃ w, D w = 0 ∧ lo ≤ w ∧ w ≤ hi ∧ |z - w| ≤ 1e-10 * (hi - lo))

theorem shape_moment {R : Set (ℝ × ℝ)} (h : ProfileShape p R) (m n : ℕ) : marin p.ext m n = areaMoment m n R := by
  rw [← encloses_ring h.encloses m n, sign_pos h.ccw]; simp

theorem shape_values {R : Set (ℝ × ℝ)} (h : ProfileShape p R) (hs : SplitsWell sh p R)
    (hs' : SplitsWell sh (p.rotate (Real.pi / 2)) (rotPt (Real.pi / 2) '' R)) (eig : ℝ → ℝ → ℝ → Eig) :
    ∃ zp yp, NearBalance (imbalance R) p.bounds.2.1 p.bounds.2.2.2 zp ∧
      NearBalance (imbalanceY R) p.bounds.1 p.bounds.2.2.1 yp ∧
      Values sh eig p (regionValue R
        (findPrincipal eig (areaMoment 0 2 R) (areaMoment 2 0 R) (areaMoment 1 1 R)).1
        (findPrincipal eig (areaMoment 0 2 R) (areaMoment 2 0 R) (areaMoment 1 1 R)).2.1
        (findPrincipal eig (areaMoment 0 2 R) (areaMoment 2 0 R) (areaMoment 1 1 R)).2.2
        (max |p.bounds.1| p.bounds.2.2.1) (max |p.bounds.2.1| p.bounds.2.2.2) zp yp) := by
  obtain ⟨zp, hz, hz1, hz2, hz3⟩ := C60_neutral_axis h hs
  obtain ⟨yp, hy, hy1, hy2, hy3⟩ := C60_neutral_axis h.quarter hs'
  have hq := bounds_quarter h.ne
  have hA : (0 : ℝ) < areaMoment 0 0 R := encloses_area_pos h.encloses
  refine ⟨zp, yp, ⟨hz1, hz2, hz3⟩, ?_, ?_⟩
  · simp only [hq, imbalance_quarter h.encloses.measurable] at hy1 hy2 hy3
    exact ⟨hy1, hy2, hy3⟩
  · have hyc : ∀ v ∈ (p.rotate (Real.pi / 2)).ext, |v.1| ≤ max |p.bounds.2.1| p.bounds.2.2.2 := by
      intro v hv
      obtain ⟨w, hw, rfl⟩ := List.mem_map.1 hv
      rw [rotPt_quarter, abs_neg]
      have := bounds_spec h.ne hw
      exact abs_le_max this.2.2.1 this.2.2.2
    refine ⟨(shape_moment h 0 0).symm, (shape_moment h 0 2).symm, (shape_moment h 2 0).symm,
      (shape_moment h 1 1).symm, rfl, ?_, ?_, ?_, ?_, ?_, ?_⟩
    · exact if_neg h.ymax_pos.ne'
    · exact if_neg h.xmax_pos.ne'
    · exact plasticModulus_eq h hs (fun v hv => xmax_covers h.ne hv) hz
    · rw [plasticModulus_eq h.quarter hs' hyc hy, absMoment_quarter h.encloses.measurable]
      rfl
    · exact ⟨_, if_neg hA.ne', by rw [show (0.5 : ℝ) = 1 / 2 by norm_num, ← Real.sqrt_eq_rpow]; rfl⟩
    · exact ⟨_, if_neg hA.ne', by rw [show (0.5 : ℝ) = 1 / 2 by norm_num, ← Real.sqrt_eq_rpow]; rfl⟩

/-- **C60, any history of reads.** For a profile whose polygon bounds the region `R`, there are axes `zp` and `yp` that
balance the areas up to the tolerance, such that in every sequence of property reads, of any length and in any
order, each read returns the value of that property of the region: area, second moments and product moment, the
principal values, elastic moduli, plastic moduli (absolute static moments about `zp`, `yp`) and radii of inertia.
The one exception is `theta`, which raises `AttributeError` unless `Icsi` or `Ieta` was read before. -/
theorem C60_reads_partial {R : Set (ℝ × ℝ)} (h : ProfileShape p R) (hs : SplitsWell sh p R)
    (hs' : SplitsWell sh (p.rotate (Real.pi / 2)) (rotPt (Real.pi / 2) '' R)) (eig : ℝ → ℝ → ℝ → Eig) :
    ∃ zp yp, NearBalance (imbalance R) p.bounds.2.1 p.bounds.2.2.2 zp ∧
      NearBalance (imbalanceY R) p.bounds.1 p.bounds.2.2.1 yp ∧
      ∀ (l : List Attr) (i : ℕ) (a : Attr), l[i]? = some a →
        (readAll sh eig l (Profile.fresh p)).2[i]? = some
          (if a = .theta ∧ (l.take i).any Attr.principal = false then .error .attributeError
            else .ok (regionValue R
              (findPrincipal eig (areaMoment 0 2 R) (areaMoment 2 0 R) (areaMoment 1 1 R)).1
              (findPrincipal eig (areaMoment 0 2 R) (areaMoment 2 0 R) (areaMoment 1 1 R)).2.1
              (findPrincipal eig (areaMoment 0 2 R) (areaMoment 2 0 R) (areaMoment 1 1 R)).2.2
              (max |p.bounds.1| p.bounds.2.2.1) (max |p.bounds.2.1| p.bounds.2.2.2) zp yp a)) := by
  obtain ⟨zp, yp, hz, hy, hv⟩ := shape_values h hs hs' eig
  refine ⟨zp, yp, hz, hy, ?_⟩
  intro l i a hi
  have := (readAll_ok hv l _ (good_fresh p _)).2 i a hi
  simpa [Profile.fresh] using this

/-- **C60, violated part.** Reading `theta` of a new profile raises `AttributeError`, whatever the profile. -/
theorem C60_theta_violated (sh : Shapely) (eig : ℝ → ℝ → ℝ → Eig) (p : Polygon) :
    (Profile.read sh eig .theta (Profile.fresh p)).2 = .error .attributeError := rfl

/-- **C60, plastic modulus.** `Wply` read from a new profile is the plastic modulus: the absolute static moment about the
axis that halves the area, which is the least of all axes, up to `1e-10` times height times area (or times height,
for areas below one). -/
theorem C60_plastic_modulus {R : Set (ℝ × ℝ)} (h : ProfileShape p R) (hs : SplitsWell sh p R)
    (eig : ℝ → ℝ → ℝ → Eig) {w : ℝ} (hw : imbalance R w = 0) (hw1 : p.bounds.2.1 ≤ w) (hw2 : w ≤ p.bounds.2.2.2) :
    ∃ v, (Profile.read sh eig .Wply (Profile.fresh p)).2 = .ok v ∧ absMoment R w ≤ v ∧
      v ≤ absMoment R w + 1e-10 * (p.bounds.2.2.2 - p.bounds.2.1) * max 1 (areaMoment 0 0 R) ∧
      ∀ u, absMoment R w ≤ absMoment R u := by
  obtain ⟨z, hz, hz1, hz2, hz3⟩ := C60_neutral_axis h hs
  refine ⟨absMoment R z, ?_, (absMoment_near h hz1 hz2 hz3 hw hw1 hw2).1,
    (absMoment_near h hz1 hz2 hz3 hw hw1 hw2).2, ?_⟩
  · simp only [Profile.read, readWply, cached, Profile.fresh, getPolygon, bind, modify', pure, ofExcept,
      plasticModulus_eq h hs (fun v hv => xmax_covers h.ne hv) hz]
  · intro u
    have := absMoment_le w u h.encloses.measurable h.encloses.bounded
    rw [hw, mul_zero, add_zero] at this
    exact this

/-- An axis that halves the area always exists. -/
theorem exists_balance {R : Set (ℝ × ℝ)} (h : ProfileShape p R) :
    ∃ w, imbalance R w = 0 ∧ p.bounds.2.1 ≤ w ∧ w ≤ p.bounds.2.2.2 := by
  have hc := (imbalance_continuous h.encloses.measurable h.encloses.bounded).continuousOn
    (s := Set.Icc p.bounds.2.1 p.bounds.2.2.2)
  obtain ⟨w, hw1, hw2⟩ := intermediate_value_Icc' h.height_pos.le hc
    ⟨(imbalance_top h).le, (imbalance_bottom h).le⟩
  exact ⟨w, hw2, hw1.1, hw1.2⟩

theorem fresh_read (hv : Values sh eig p T) {a : Attr} (ha : a ≠ .theta) :
    (Profile.read sh eig a (Profile.fresh p)).2 = .ok (T a) := by
  obtain ⟨s', h1, -, -⟩ := read_ok hv ha _ (good_fresh p _)
  rw [h1]

/-- **C60, plastic modulus** of bending about the other axis. -/
theorem C60_plastic_modulus_z {R : Set (ℝ × ℝ)} (h : ProfileShape p R)
    (hs' : SplitsWell sh (p.rotate (Real.pi / 2)) (rotPt (Real.pi / 2) '' R))
    (eig : ℝ → ℝ → ℝ → Eig) {w : ℝ} (hw : imbalanceY R w = 0) (hw1 : p.bounds.1 ≤ w) (hw2 : w ≤ p.bounds.2.2.1) :
    ∃ v, (Profile.read sh eig .Wplz (Profile.fresh p)).2 = .ok v ∧ absMomentY R w ≤ v ∧
      v ≤ absMomentY R w + 1e-10 * (p.bounds.2.2.1 - p.bounds.1) * max 1 (areaMoment 0 0 R) ∧
      ∀ u, absMomentY R w ≤ absMomentY R u := by
  have hm := h.encloses.measurable
  obtain ⟨z, hz, hz1, hz2, hz3⟩ := C60_neutral_axis h.quarter hs'
  have hyc : ∀ v ∈ (p.rotate (Real.pi / 2)).ext, |v.1| ≤ max |p.bounds.2.1| p.bounds.2.2.2 := by
    intro v hv
    obtain ⟨w, hw, rfl⟩ := List.mem_map.1 hv
    rw [rotPt_quarter, abs_neg]
    have := bounds_spec h.ne hw
    exact abs_le_max this.2.2.1 this.2.2.2
  have hq := bounds_quarter h.ne
  have hA : areaMoment 0 0 (rotPt (Real.pi / 2) '' R) = areaMoment 0 0 R := by
    unfold areaMoment
    rw [integral_rot _ hm]
    simp
  have near := absMoment_near h.quarter hz1 hz2 hz3 (w := w) (by rw [imbalance_quarter hm]; exact hw)
    (by rw [hq]; exact hw1) (by rw [hq]; exact hw2)
  rw [absMoment_quarter hm, absMoment_quarter hm, hq, hA] at near
  refine ⟨absMomentY R z, ?_, near.1, near.2, ?_⟩
  · simp only [Profile.read, readWplz, cached, Profile.fresh, getPolygon, bind, modify', pure, ofExcept,
      plasticModulus_eq h.quarter hs' hyc hz, absMoment_quarter hm]
  · intro u
    have := absMoment_le w u (rot_measurable (Real.pi / 2) hm) (rot_bounded (Real.pi / 2) h.encloses.bounded)
    rw [imbalance_quarter hm, hw, mul_zero, add_zero, absMoment_quarter hm, absMoment_quarter hm] at this
    exact this

/-- **C60, principal moments.** `Icsi` and `Ieta` are the largest and smallest second moment over all axes through
the origin.  (The angle `theta`, once it can be read, is only determined up to sign, as in C52.) -/
theorem C60_principal_partial {R : Set (ℝ × ℝ)} (h : ProfileShape p R) (hs : SplitsWell sh p R)
    (hs' : SplitsWell sh (p.rotate (Real.pi / 2)) (rotPt (Real.pi / 2) '' R)) (eig : ℝ → ℝ → ℝ → Eig)
    (he : IsEig (areaMoment 0 2 R) (areaMoment 1 1 R) (areaMoment 2 0 R)
      (eig (areaMoment 0 2 R) (areaMoment 1 1 R) (areaMoment 2 0 R))) :
    ∃ i1 i2 th, (Profile.read sh eig .Icsi (Profile.fresh p)).2 = .ok i1 ∧
      (Profile.read sh eig .Ieta (Profile.fresh p)).2 = .ok i2 ∧
      (readAll sh eig [.Icsi, .theta] (Profile.fresh p)).2 = [.ok i1, .ok th] ∧
      (∀ phi, i2 ≤ (⟨[(1, R)], []⟩ : Body).aboutAxis 0 phi ∧ (⟨[(1, R)], []⟩ : Body).aboutAxis 0 phi ≤ i1) ∧
      ((⟨[(1, R)], []⟩ : Body).aboutAxis 0 th = i1 ∨ (⟨[(1, R)], []⟩ : Body).aboutAxis 0 (-th) = i1) := by
  obtain ⟨zp, yp, -, -, hv⟩ := shape_values h hs hs' eig
  have e1 : (momentsOf ⟨[(1, R)], []⟩ 0).iyy = areaMoment 0 2 R := by
    simp [momentsOf, Body.integral, areaMoment]
  have e2 : (momentsOf ⟨[(1, R)], []⟩ 0).izz = areaMoment 2 0 R := by
    simp [momentsOf, Body.integral, areaMoment]
  have e3 : (momentsOf ⟨[(1, R)], []⟩ 0).iyz = areaMoment 1 1 R := by
    simp [momentsOf, Body.integral, areaMoment]
  have hp := C52_principal_partial ⟨[(1, R)], []⟩ (by simpa [BoundedBody] using h.encloses.bounded) 0 eig
    (by rw [e1, e2, e3]; exact he) _ _ _ (by rw [e1, e2, e3])
  rw [e1, e2] at hp
  refine ⟨_, _, _, fresh_read hv (a := .Icsi) (by simp), fresh_read hv (a := .Ieta) (by simp), ?_, hp.1, hp.2.1⟩
  have ha := (readAll_ok hv [.Icsi, .theta] _ (good_fresh p _)).2
  have h0 := ha 0 .Icsi rfl
  have h1 := ha 1 .theta rfl
  obtain ⟨x, y, hxy⟩ : ∃ x y, (readAll sh eig [.Icsi, .theta] (Profile.fresh p)).2 = [x, y] := ⟨_, _, rfl⟩
  rw [hxy] at h0 h1 ⊢
  simp only [List.getElem?_cons_zero, Option.some.injEq, reduceCtorEq, false_and, if_false] at h0
  simp [Attr.principal] at h1
  rw [h0, h1]
  rfl

/-- **C60, plastic and elastic modulus.** For a profile whose centroid is at the origin, as the constructors place it, the
plastic modulus is at least the elastic one, in both directions. -/
theorem C60_shape_factor {R : Set (ℝ × ℝ)} (h : ProfileShape p R) (hs : SplitsWell sh p R)
    (hs' : SplitsWell sh (p.rotate (Real.pi / 2)) (rotPt (Real.pi / 2) '' R)) (eig : ℝ → ℝ → ℝ → Eig)
    (hz : areaMoment 0 1 R = 0) (hy : areaMoment 1 0 R = 0) :
    (∃ e w, (Profile.read sh eig .Wely (Profile.fresh p)).2 = .ok e ∧
      (Profile.read sh eig .Wply (Profile.fresh p)).2 = .ok w ∧ 0 < e ∧ e ≤ w) ∧
    (∃ e w, (Profile.read sh eig .Welz (Profile.fresh p)).2 = .ok e ∧
      (Profile.read sh eig .Wplz (Profile.fresh p)).2 = .ok w ∧ 0 < e ∧ e ≤ w) := by
  obtain ⟨zp, yp, -, -, hv⟩ := shape_values h hs hs' eig
  have hm := h.encloses.measurable
  have hb := h.encloses.bounded
  have hpos2 : 0 < areaMoment 0 2 R := by
    unfold areaMoment
    rw [setIntegral_pos_iff_support_of_nonneg_ae (ae_of_all _ fun x => by simp; positivity)
      (continuous_integrableOn (by fun_prop) hb)]
    have : R \ {x : ℝ × ℝ | x.2 = 0} ⊆ Function.support (fun x : ℝ × ℝ => x.1 ^ 0 * x.2 ^ 2) ∩ R := by
      intro x hx
      exact ⟨by simpa using hx.2, hx.1⟩
    refine lt_of_lt_of_le ?_ (measure_mono this)
    rw [measure_sdiff_null (volume_line 0)]
    exact h.volume_pos
  have hpos1 : 0 < areaMoment 2 0 R := by
    unfold areaMoment
    rw [setIntegral_pos_iff_support_of_nonneg_ae (ae_of_all _ fun x => by simp; positivity)
      (continuous_integrableOn (by fun_prop) hb)]
    have : R \ {x : ℝ × ℝ | x.1 = 0} ⊆ Function.support (fun x : ℝ × ℝ => x.1 ^ 2 * x.2 ^ 0) ∩ R := by
      intro x hx
      exact ⟨by simpa using hx.2, hx.1⟩
    refine lt_of_lt_of_le ?_ (measure_mono this)
    rw [measure_sdiff_null (volume_vline 0)]
    exact h.volume_pos
  refine ⟨⟨_, _, fresh_read hv (a := .Wely) (by simp), fresh_read hv (a := .Wply) (by simp), ?_, ?_⟩,
    ⟨_, _, fresh_read hv (a := .Welz) (by simp), fresh_read hv (a := .Wplz) (by simp), ?_, ?_⟩⟩
  · exact div_pos hpos2 h.ymax_pos
  · simp only [regionValue]
    rw [div_le_iff₀ h.ymax_pos, absMoment, ← integral_mul_const]
    have e : areaMoment 0 2 R = ∫ x in R, (x.2 * (x.2 - zp)) := by
      have h1 : areaMoment 0 2 R - zp * areaMoment 0 1 R = ∫ x in R, (x.2 * (x.2 - zp)) := by
        simp only [areaMoment]
        rw [← integral_const_mul, ← integral_sub (continuous_integrableOn (by fun_prop) hb)
          (continuous_integrableOn (by fun_prop) hb)]
        congr 1; funext x; ring
      rw [← h1, hz]; ring
    rw [e]
    refine setIntegral_mono_on (continuous_integrableOn (by fun_prop) hb)
      (continuous_integrableOn (by fun_prop) hb) hm ?_
    intro x hx
    have hbx := h.box x hx
    have h2 := abs_le_max hbx.2.2.1 hbx.2.2.2
    calc x.2 * (x.2 - zp) ≤ |x.2 * (x.2 - zp)| := le_abs_self _
      _ = |x.2 - zp| * |x.2| := by rw [abs_mul, mul_comm]
      _ ≤ _ := mul_le_mul_of_nonneg_left h2 (abs_nonneg _)
  · exact div_pos hpos1 h.xmax_pos
  · simp only [regionValue]
    rw [div_le_iff₀ h.xmax_pos, absMomentY, ← integral_mul_const]
    have e : areaMoment 2 0 R = ∫ x in R, (x.1 * (x.1 - yp)) := by
      have h1 : areaMoment 2 0 R - yp * areaMoment 1 0 R = ∫ x in R, (x.1 * (x.1 - yp)) := by
        simp only [areaMoment]
        rw [← integral_const_mul, ← integral_sub (continuous_integrableOn (by fun_prop) hb)
          (continuous_integrableOn (by fun_prop) hb)]
        congr 1; funext x; ring
      rw [← h1, hy]; ring
    rw [e]
    refine setIntegral_mono_on (continuous_integrableOn (by fun_prop) hb)
      (continuous_integrableOn (by fun_prop) hb) hm ?_
    intro x hx
    have hbx := h.box x hx
    have h2 := abs_le_max hbx.1 hbx.2.1
    calc x.1 * (x.1 - yp) ≤ |x.1 * (x.1 - yp)| := le_abs_self _
      _ = |x.1 - yp| * |x.1| := by rw [abs_mul, mul_comm]
      _ ≤ _ := mul_le_mul_of_nonneg_left h2 (abs_nonneg _)

end SC
