import Verif.Lemmas.Laws

/-!
# C05, C06, C07, C12: scalar and array evaluation, aliasing, secant
-/

namespace SC

open Classical Spec

/-! ## C05: scalar and array `get_stress` agree -/

theorem C05_elastic (l : Elastic) : Agree l.stress (fun _ => l.stressArr) := fun _ _ _ => rfl

/-- The laws built by the public constructors. -/
theorem C05_sargin (fc e1 u k : ℝ) :
    Agree (Sargin.new fc e1 u k).stress (fun _ => (Sargin.new fc e1 u k).stressArr) := by
  intro ι eps i
  have h : ¬ isclose ((Sargin.new fc e1 u k).ult false).2 ((Sargin.new fc e1 u k).ult false).1 :=
    not_isclose_hundred u
  simp only [Sargin.stressArr, Sargin.stress, Sargin.core, maskSet_apply, snapArr_apply h]
  split_ifs <;> first | rfl | (exfalso; grind)

theorem C05_bilinear {fc ec : ℝ} {u : Option ℝ} {l : Bilinear} (hl : Bilinear.new? fc ec u = .ok l) :
    Agree l.stress (fun _ => l.stressArr) := by
  intro ι eps i
  have h : ¬ isclose (l.ult false).2 (l.ult false).1 := by
    unfold Bilinear.new? at hl
    split at hl
    · cases hl
    · split at hl
      · cases hl
      · cases hl; exact not_isclose_hundred _
  simp only [Bilinear.stressArr, Bilinear.stress, Bilinear.core, maskSet_apply, snapArr_apply h]
  rw [max_def]
  grind

theorem C05_popovics {fc ec u : ℝ} {Ec : Option ℝ} {l : Popovics}
    (hl : Popovics.new? fc ec u Ec = .ok l) : Agree l.stress (fun _ => l.stressArr) := by
  intro ι eps i
  have h : ¬ isclose (l.ult false).2 (l.ult false).1 := by
    unfold Popovics.new? at hl
    dsimp only at hl
    split_ifs at hl
    cases hl; exact not_isclose_hundred _
  simp only [Popovics.stressArr, Popovics.stress, Popovics.core, maskSet_apply, snapArr_apply h]
  split_ifs <;> first | rfl | (exfalso; grind)

/-- For the parabola-rectangle law the two branches agree provided the ultimate strain is not
smaller than the peak strain; see `C05_parabola_rectangle_violated` for the excluded case. -/
theorem C05_parabola_rectangle_partial (fc e0 u n : ℝ) (h0 : |e0| ≤ |u|) :
    Agree (ParabolaRectangle.new fc e0 u n).stress (fun _ => (ParabolaRectangle.new fc e0 u n).stressArr) := by
  intro ι eps i
  have h : ¬ isclose ((ParabolaRectangle.new fc e0 u n).ult false).2
      ((ParabolaRectangle.new fc e0 u n).ult false).1 := not_isclose_hundred u
  simp only [ParabolaRectangle.stressArr, ParabolaRectangle.stress, ParabolaRectangle.core, maskSet_apply,
    snapArr_apply h]
  generalize snap ((ParabolaRectangle.new fc e0 u n).ult false) (eps i) = x
  have h1 := abs_nonneg e0
  clear h
  have e1 : -|e0| ≤ 0 := by linarith
  have e2 : -|u| ≤ -|e0| := by linarith
  generalize -|fc| * (1 - (1 - x / -|e0|) ^ n) = P
  grind

example : |(-0.002 : ℝ)| ≤ |(0.0035 : ℝ)| := by norm_num [abs_of_nonneg, abs_of_neg]

/-- With an ultimate strain below the peak strain (accepted by the constructor) the scalar branch
returns a stress where the array branch returns 0. -/
theorem C05_parabola_rectangle_violated :
    ¬ ∀ fc e0 u n : ℝ,
      Agree (ParabolaRectangle.new fc e0 u n).stress (fun _ => (ParabolaRectangle.new fc e0 u n).stressArr) := by
  intro H
  have H := H 1 2 1 1 Unit (fun _ => -3/2) ()
  have h : ¬ isclose ((ParabolaRectangle.new 1 2 1 1).ult false).2
      ((ParabolaRectangle.new 1 2 1 1).ult false).1 := not_isclose_hundred 1
  have hs : snap ((ParabolaRectangle.new 1 2 1 1).ult false) (-3/2) = -3/2 := by
    apply snap_of_clear <;> simp [ParabolaRectangle.ult, ParabolaRectangle.new, Clear] <;>
      norm_num [abs_of_nonneg, abs_of_neg]
  simp only [ParabolaRectangle.stressArr, ParabolaRectangle.stress, ParabolaRectangle.core, maskSet_apply,
    snapArr_apply h, hs] at H
  norm_num [ParabolaRectangle.new] at H

/-- For the elastic-plastic law the branches agree whenever the two ultimate strains `±u` are
distinguishable by the tolerance, i.e. unless `u` is below about `5e-7`; see
`C05_elasticplastic_violated`. -/
theorem C05_elasticplastic_partial (l : ElasticPlastic)
    (h : Clear (l.ult false).2 (l.ult false).1) : Agree l.stress (fun _ => l.stressArr) := by
  rw [← not_isclose_iff] at h
  intro ι eps i
  rcases l with ⟨E, fy, Eh, u⟩
  cases u with
  | none =>
    simp only [ElasticPlastic.stressArr, ElasticPlastic.stress, ElasticPlastic.core, maskSet_apply,
      snapArr_apply h, ElasticPlastic.beyond, if_false]
  | some u =>
    simp only [ElasticPlastic.stressArr, ElasticPlastic.stress, ElasticPlastic.core, maskSet_apply,
      snapArr_apply h, ElasticPlastic.beyond]
    clear h; grind

/-- The condition of `C05_elasticplastic_partial` in plain numbers. -/
theorem C05_elasticplastic_condition (E fy Eh u : ℝ) (hu : 1e-6 ≤ u) :
    Agree (ElasticPlastic.mk E fy Eh (some u)).stress
      (fun _ => (ElasticPlastic.mk E fy Eh (some u)).stressArr) := by
  apply C05_elasticplastic_partial
  simp only [ElasticPlastic.ult, Clear, Bool.false_eq_true, if_false]
  have hu0 : 0 < u := by linarith
  rw [abs_neg, abs_of_pos hu0, abs_of_pos (by simp; linarith)]
  norm_num at hu ⊢; linarith

example : (1e-6 : ℝ) ≤ 0.025 := by norm_num

/-- A law with ultimate strain 0 < u <= 5e-7: at `eps = u` the array branch snaps first to `u` and
then to `-u`, so the stress has the opposite sign. -/
theorem C05_elasticplastic_violated :
    ¬ ∀ l : ElasticPlastic, Agree l.stress (fun _ => l.stressArr) := by
  intro H
  have H := H ⟨1, 1, 0, some 1e-7⟩ Unit (fun _ => 1e-7) ()
  have hn : isclose (-1e-7) (-1e-7) := isclose_self _
  have hc : isclose 1e-7 (-1e-7) := by
    unfold isclose; norm_num [abs_of_nonneg, abs_of_neg]
  have hp : isclose 1e-7 1e-7 := isclose_self _
  simp [ElasticPlastic.stressArr, ElasticPlastic.stress, ElasticPlastic.core, maskSet_apply, snapArr, snap,
    ElasticPlastic.ult, hc, hp, ElasticPlastic.beyond, ElasticPlastic.deltaSig] at H
  norm_num at H

/-! ## C06: scalar and array `get_tangent` agree -/

theorem C06_elastic (l : Elastic) : Agree l.tangent (fun _ => l.tangentArr) := by
  intro ι eps i; simp [Elastic.tangent, Elastic.tangentArr]

theorem C06_elasticplastic (l : ElasticPlastic) : Agree l.tangent (fun _ => l.tangentArr) := by
  intro ι eps i
  rcases l with ⟨E, fy, Eh, u⟩
  cases u with
  | none =>
    simp only [ElasticPlastic.tangentArr, ElasticPlastic.tangent, maskSet_apply, ElasticPlastic.beyond,
      ElasticPlastic.eps_sy]
    grind
  | some u =>
    simp only [ElasticPlastic.tangentArr, ElasticPlastic.tangent, maskSet_apply, ElasticPlastic.beyond,
      ElasticPlastic.eps_sy]
    grind

theorem C06_parabola_rectangle (fc e0 u n : ℝ) :
    Agree (ParabolaRectangle.new fc e0 u n).tangent (fun _ => (ParabolaRectangle.new fc e0 u n).tangentArr) := by
  intro ι eps i
  simp only [ParabolaRectangle.tangentArr, ParabolaRectangle.tangent, maskSet_apply]
  split_ifs <;> first | rfl | (exfalso; grind)

theorem C06_sargin (l : Sargin) : Agree l.tangent (fun _ => l.tangentArr) := by
  intro ι eps i
  simp only [Sargin.tangentArr, Sargin.tangent, maskSet_apply]
  split_ifs <;> first | rfl | (exfalso; grind)

theorem C06_popovics {fc ec u : ℝ} {Ec : Option ℝ} {l : Popovics}
    (hl : Popovics.new? fc ec u Ec = .ok l) : Agree l.tangent (fun _ => l.tangentArr) := by
  intro ι eps i
  have h : ¬ isclose (l.ult false).2 (l.ult false).1 := by
    unfold Popovics.new? at hl
    dsimp only at hl
    split_ifs at hl
    cases hl; exact not_isclose_hundred _
  simp only [Popovics.tangentArr, Popovics.tangent, Popovics.tcore, maskSet_apply, snapArr_apply h]
  split_ifs <;> first | rfl | (exfalso; grind)

/-- Bilinear law: agreement everywhere except at strain 0 and at the peak strain. -/
theorem C06_bilinear_partial (l : Bilinear) (hc : l.eps_c < 0) (ι : Type) (eps : ι → ℝ) (i : ι)
    (h0 : eps i ≠ 0) (h1 : eps i ≠ l.eps_c) : l.tangentArr eps i = l.tangent (eps i) := by
  simp only [Bilinear.tangentArr, Bilinear.tangent, maskSet_apply]
  rcases lt_or_gt_of_ne h0 with h0 | h0 <;> rcases lt_or_gt_of_ne h1 with h1 | h1 <;>
    split_ifs <;> first | rfl | ring1 | (exfalso; grind)

example : (Bilinear.mk (-20) (-0.00175) (-0.0035)).eps_c < 0 := by norm_num

/-- At strain 0 the scalar call returns the elastic modulus and the array call returns 0; at the
peak strain it is the other way round.  For *every* bilinear law with non-zero strength. -/
theorem C06_bilinear_violated (l : Bilinear) (hf : l.fc ≠ 0) (hc : l.eps_c < 0) :
    (l.tangent 0 = l.E ∧ l.tangentArr (fun _ : Unit => 0) () = 0) ∧
    (l.tangent l.eps_c = 0 ∧ l.tangentArr (fun _ : Unit => l.eps_c) () = l.E) ∧
    ¬ Agree l.tangent (fun _ => l.tangentArr) := by
  have a : l.tangent 0 = l.E := by simp [Bilinear.tangent, hc]
  have b : l.tangentArr (fun _ : Unit => 0) () = 0 := by simp [Bilinear.tangentArr, maskSet_apply]
  have c : l.tangent l.eps_c = 0 := by simp [Bilinear.tangent]
  have d : l.tangentArr (fun _ : Unit => l.eps_c) () = l.E := by
    simp [Bilinear.tangentArr, maskSet_apply, hc]
  refine ⟨⟨a, b⟩, ⟨c, d⟩, fun H => ?_⟩
  have := H Unit (fun _ => 0) ()
  dsimp only at this
  rw [a, b] at this
  have hE : l.E ≠ 0 := by unfold Bilinear.E; exact div_ne_zero hf hc.ne
  exact hE this.symm

/-! ## C07: evaluating a law does not modify the caller's array -/

/-- After `get_stress(array)` the caller's array is different from before: a parabola-rectangle
law of ordinary concrete, and a strain close to the ultimate strain. -/
theorem C07_violated :
    ∃ eps : Unit → ℝ,
      ((ParabolaRectangle.new 30 0.002 0.0035 2).getStressCall eps).2 ≠ eps := by
  refine ⟨fun _ => -0.0035 + 1e-7, fun H => ?_⟩
  have H := congrFun H ()
  simp only [ParabolaRectangle.getStressCall] at H
  rw [snapArr_apply (not_isclose_hundred _)] at H
  have h1 : ¬ isclose (-0.0035 + 1e-7) 100 := by
    rw [not_isclose_iff]; exact clear_hundred_of_nonpos (by norm_num)
  have h2 : isclose (-0.0035 + 1e-7) (-0.0035) := by
    unfold isclose; norm_num [abs_of_nonneg, abs_of_neg]
  have h3 : (ParabolaRectangle.new 30 0.002 0.0035 2).ult false = (-0.0035, 100) := by
    simp [ParabolaRectangle.ult, ParabolaRectangle.new]
    norm_num [abs_of_nonneg]
  rw [h3] at H
  simp only [snap, h1, h2, if_true, if_false] at H
  norm_num at H

/-- What remains true for every law with snapping: an entry that is clear of both limits is left
alone, any other entry moves to a limit by at most the tolerance, and the damage is idempotent
(a second call changes nothing more). -/
theorem C07_partial {ι : Type} (lim : ℝ × ℝ) (h : Clear lim.2 lim.1) (h' : Clear lim.1 lim.2) (eps : ι → ℝ) (i : ι) :
    (Clear (eps i) lim.1 → Clear (eps i) lim.2 → snapArr lim eps i = eps i) ∧
    (snapArr lim eps i = eps i ∨
      (snapArr lim eps i = lim.1 ∧ |eps i - lim.1| ≤ 1e-6 + 1e-5 * |lim.1|) ∨
      (snapArr lim eps i = lim.2 ∧ |eps i - lim.2| ≤ 1e-6 + 1e-5 * |lim.2|)) ∧
    snapArr lim (snapArr lim eps) i = snapArr lim eps i := by
  have hn := (not_isclose_iff _ _).2 h
  rw [snapArr_idem hn ((not_isclose_iff _ _).2 h'), snapArr_apply hn]
  refine ⟨snap_of_clear, ?_, rfl⟩
  rcases snap_cases lim (eps i) with ⟨h, -⟩ | ⟨h, h', -⟩ | ⟨h, h'⟩
  · exact .inl h
  · exact .inr (.inl ⟨h, h'⟩)
  · exact .inr (.inr ⟨h, h'⟩)

example : Clear (100 : ℝ) (-0.0035) ∧ Clear (-0.0035) (100 : ℝ) := by
  unfold Clear; norm_num [abs_of_nonneg, abs_of_neg]

/-- Repeating the call on the caller's (modified) array returns the same stresses, for every
concrete law built by its constructor and every elastic-plastic law with a usual ultimate
strain. -/
theorem C07_repeat_partial {ι : Type} (eps : ι → ℝ) :
    (∀ fc e0 u n, let l := ParabolaRectangle.new fc e0 u n
      (l.getStressCall (l.getStressCall eps).2).1 = (l.getStressCall eps).1) ∧
    (∀ fc e1 u k, let l := Sargin.new fc e1 u k
      (l.getStressCall (l.getStressCall eps).2).1 = (l.getStressCall eps).1) ∧
    (∀ l : ElasticPlastic, Clear (l.ult false).2 (l.ult false).1 →
      (l.getStressCall (l.getStressCall eps).2).1 = (l.getStressCall eps).1) := by
  refine ⟨fun fc e0 u n => ?_, fun fc e1 u k => ?_, fun l hl => ?_⟩
  · simp only [ParabolaRectangle.getStressCall, ParabolaRectangle.stressArr]
    rw [snapArr_idem (not_isclose_hundred u) (not_isclose_neg_abs_hundred u)]
  · simp only [Sargin.getStressCall, Sargin.stressArr]
    rw [snapArr_idem (not_isclose_hundred u) (not_isclose_neg_abs_hundred u)]
  · simp only [ElasticPlastic.getStressCall, ElasticPlastic.stressArr]
    have hl := (not_isclose_iff _ _).2 hl
    have hs : ¬ isclose (l.ult false).1 (l.ult false).2 := by
      have he : (l.ult false).1 = -(l.ult false).2 := by
        unfold ElasticPlastic.ult; cases l.eps_su <;> simp
      rw [he, isclose_neg, ← he]; exact hl
    rw [snapArr_idem hl hs]

/-! ## C12: secant -/

/-- `get_secant(eps) * eps = get_stress(eps)` for every law and every non-zero strain, and
`get_secant(0) = get_tangent(0)`. -/
theorem C12_secant (l : Law) :
    (∀ e, e ≠ 0 → secant l e * e = l.stress e) ∧ secant l 0 = l.tangent 0 := by
  constructor
  · intro e he; simp [secant, he]
  · simp [secant]

/-- The array version agrees with the scalar one whenever the law's own array methods do. -/
theorem C12_secant_array (l : Law) (stressA tangentA : ArrayFn)
    (hs : Agree l.stress stressA) (ht : Agree l.tangent tangentA) :
    Agree (secant l) (fun _ => secantArr stressA tangentA) := by
  intro ι eps i
  unfold secantArr secant
  by_cases h : eps i = 0
  · simp [h]
    rw [ht]; simp [h]
  · simp [h]
    rw [hs]

example : Agree (Sargin.new 30 0.002 0.0035 2).law.stress
    (fun _ => (Sargin.new 30 0.002 0.0035 2).stressArr) :=
  C05_sargin _ _ _ _

end SC
