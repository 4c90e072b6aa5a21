import Verif.Lemmas.Interp
import Verif.Spec.Poly

/-!
# C17: UserDefined interpolates its data (and C05, C06, C10, C13 for this law)
-/

set_option autoImplicit false

namespace SC

open Classical Spec

/-- Between two consecutive data points the stress is on the chord; in particular it takes the
given values at the given strains. -/
theorem C17_chord (l : UserDefined) (hs : Increasing l.pts) {pre post : List (ℝ × ℝ)} {p q : ℝ × ℝ}
    (hp : l.pts = pre ++ p :: q :: post) {e : ℝ} (h1 : p.1 ≤ e) (h2 : e ≤ q.1)
    (hc : Clear e l.ult_n ∧ Clear e l.ult_p) :
    l.stress e = p.2 + (q.2 - p.2) / (q.1 - p.1) * (e - p.1) := by
  have : snap l.ult e = e := snap_of_clear hc.1 hc.2
  rw [UserDefined.stress, this, hp]
  rw [hp] at hs
  exact interp_segment pre p q post hs h1 h2 0 0

/-- At the ultimate strains themselves (which default to the first and last strain), and within
the tolerance around them, the stress is the one interpolated at the ultimate strain. -/
theorem C17_at_limits (l : UserDefined) (hs : Increasing l.pts) {pre post : List (ℝ × ℝ)}
    {p q : ℝ × ℝ} (hp : l.pts = pre ++ p :: q :: post) {e : ℝ} :
    ((¬ Clear e l.ult_p) → p.1 ≤ l.ult_p → l.ult_p ≤ q.1 →
      l.stress e = p.2 + (q.2 - p.2) / (q.1 - p.1) * (l.ult_p - p.1)) ∧
    (Clear e l.ult_p → ¬ Clear e l.ult_n → p.1 ≤ l.ult_n → l.ult_n ≤ q.1 →
      l.stress e = p.2 + (q.2 - p.2) / (q.1 - p.1) * (l.ult_n - p.1)) := by
  rw [hp] at hs
  constructor
  · intro hc h1 h2
    rw [← not_isclose_iff, not_not] at hc
    have : snap l.ult e = l.ult_p := by simp [snap, UserDefined.ult, hc]
    rw [UserDefined.stress, this, hp]
    exact interp_segment pre p q post hs h1 h2 0 0
  · intro hc hc' h1 h2
    rw [← not_isclose_iff] at hc
    rw [← not_isclose_iff, not_not] at hc'
    have : snap l.ult e = l.ult_n := by simp [snap, UserDefined.ult, hc, hc']
    rw [UserDefined.stress, this, hp]
    exact interp_segment pre p q post hs h1 h2 0 0

/-- Zero outside the data. -/
theorem C17_outside (l : UserDefined) {e : ℝ} (hc : Clear e l.ult_n ∧ Clear e l.ult_p)
    (h : (∀ p ∈ l.pts, e < p.1) ∨ (∀ p ∈ l.pts, p.1 < e)) : l.stress e = 0 := by
  have hsn : snap l.ult e = e := snap_of_clear hc.1 hc.2
  rw [UserDefined.stress, hsn]
  rcases h with h | h
  · cases hp : l.pts with
    | nil => rfl
    | cons p post =>
      rw [hp] at h
      exact interp_left p post (h p (by simp)) 0 0
  · exact interp_right _ h 0 0

/-- The stress never leaves the range spanned by the data and 0, whatever the strain. -/
theorem C17_bounded (l : UserDefined) (hs : Increasing l.pts) {lo hi : ℝ} (h0 : lo ≤ 0 ∧ 0 ≤ hi)
    (hdata : ∀ p ∈ l.pts, lo ≤ p.2 ∧ p.2 ≤ hi) (e : ℝ) : lo ≤ l.stress e ∧ l.stress e ≤ hi := by
  unfold UserDefined.stress
  generalize snap l.ult e = x
  cases hp : l.pts with
  | nil => simpa [interp, interpGo] using h0
  | cons p pts =>
    rw [hp] at hs hdata
    rcases locate p pts x hs with h | h | ⟨h, h'⟩ | ⟨pre, a, b, post, he, h1, h2⟩
    · rw [interp_left p pts h]; exact h0
    · rw [interp_right _ h]; exact h0
    · subst h; subst h'
      have : interp p.1 [p] 0 0 = p.2 := by simp [interp, interpGo]
      rw [this]; exact hdata p (by simp)
    · rw [he] at hs hdata ⊢
      rw [interp_segment pre a b post hs h1 h2]
      have ha := hdata a (by simp)
      have hb := hdata b (by simp)
      have hab : a.1 < b.1 := by
        have := (List.pairwise_append.1 hs).2.1
        exact (List.pairwise_cons.1 this).1 b (by simp)
      have t0 : 0 ≤ (x - a.1) / (b.1 - a.1) := div_nonneg (by linarith) (by linarith)
      have t1 : (x - a.1) / (b.1 - a.1) ≤ 1 := by rw [div_le_one (by linarith)]; linarith
      have : chord a b x = a.2 + (b.2 - a.2) * ((x - a.1) / (b.1 - a.1)) := by
        unfold chord; ring
      rw [this]
      generalize (x - a.1) / (b.1 - a.1) = t at *
      constructor <;> nlinarith

/-- The mirror image of a point list. -/
def negRev (pts : List (ℝ × ℝ)) : List (ℝ × ℝ) := pts.reverse.map fun p => (-p.1, -p.2)

theorem interp_odd (pts : List (ℝ × ℝ)) (hs : Increasing pts) (hsym : negRev pts = pts) (x : ℝ) :
    interp (-x) pts 0 0 = -interp x pts 0 0 := by
  have hmem : ∀ p ∈ pts, (-p.1, -p.2) ∈ pts := by
    intro p hp
    rw [← hsym]; unfold negRev
    exact List.mem_map.2 ⟨p, List.mem_reverse.2 hp, rfl⟩
  cases hp : pts with
  | nil => simp [interp]
  | cons p rest =>
    rcases locate p rest x (hp ▸ hs) with h | h | ⟨h, h'⟩ | ⟨pre, a, b, post, he, h1, h2⟩
    · rw [interp_left p rest h, neg_zero]
      apply interp_right
      intro q hq
      rw [← hp] at hq
      have hq' := hmem q hq
      have : p.1 ≤ -q.1 := by
        rw [hp] at hq' hs
        rcases List.mem_cons.1 hq' with e | e
        · rw [← e]
        · exact ((List.pairwise_cons.1 hs).1 _ e).le
      linarith
    · rw [interp_right _ h, neg_zero]
      apply interp_left
      have := h (-p.1, -p.2) (by rw [← hp]; exact hmem p (by rw [hp]; simp))
      simp only at this; linarith
    · subst h; subst h'
      have : (-p.1, -p.2) = p := by
        rw [hp] at hsym; simpa [negRev] using hsym
      have e1 : -p.1 = p.1 := congrArg Prod.fst this
      have e2 : -p.2 = p.2 := congrArg Prod.snd this
      have e3 : p.2 = 0 := by linarith
      rw [e1]
      have : interp p.1 [p] 0 0 = p.2 := by simp [interp, interpGo]
      rw [this, e3]; simp
    · rw [he, interp_segment pre a b post (by rw [← he, ← hp]; exact hs) h1 h2]
      have hrev : negRev (pre ++ a :: b :: post) =
          negRev post ++ (-b.1, -b.2) :: (-a.1, -a.2) :: negRev pre := by
        simp [negRev]
      have hsame : pre ++ a :: b :: post = negRev post ++ (-b.1, -b.2) :: (-a.1, -a.2) :: negRev pre := by
        rw [← hrev, ← he, ← hp]; exact hsym.symm
      have hinc : Increasing (negRev post ++ (-b.1, -b.2) :: (-a.1, -a.2) :: negRev pre) := by
        rw [← hsame, ← he, ← hp]; exact hs
      rw [hsame, interp_segment _ (-b.1, -b.2) (-a.1, -a.2) _ hinc (by simpa using h2) (by simpa using h1)]
      have hab : a.1 < b.1 := by
        rw [hp, he] at hs
        exact (List.pairwise_cons.1 (List.pairwise_append.1 hs).2.1).1 b (by simp)
      have : b.1 - a.1 ≠ 0 := by linarith
      have h3 : -a.1 - -b.1 = b.1 - a.1 := by ring
      unfold chord
      simp only [h3]
      field_simp
      ring

/-- If only non-negative strains are given, starting with the point (0, 0), the law is odd
(`flag = 0`, largest strain at least `2e-6`). -/
theorem C17_odd_partial (x y : List ℝ) (x' y' : List ℝ) (hx : x = 0 :: x') (hy : y = 0 :: y')
    (hinc : Increasing (x.zip y)) (hlen : x'.length = y'.length) (hne : x' ≠ [])
    (hbig : ∀ h, 2e-6 ≤ x'.getLast h) {l : UserDefined} (hl : UserDefined.new? x y none 0 = .ok l)
    (e : ℝ) : l.stress (-e) = -l.stress e := by
  subst hx hy
  set r := x'.zip y' with hr
  have hrne : r ≠ [] := by
    intro h; rw [hr, List.zip_eq_nil_iff] at h
    rcases h with h | h
    · exact hne h
    · rw [h] at hlen; simp at hlen; exact hne hlen
  have hinc' : Increasing ((0, 0) :: r) := by simpa [hr] using hinc
  have hpos : ∀ p ∈ r, 0 < p.1 := (List.pairwise_cons.1 hinc').1
  have hnoneg : ¬ ∃ p ∈ ((0:ℝ), (0:ℝ)) :: r, p.1 < 0 := by
    rintro ⟨p, hp, hneg⟩
    rcases List.mem_cons.1 hp with rfl | hp
    · simp at hneg
    · linarith [hpos p hp]
  have hmir : UserDefined.mirror (((0:ℝ), (0:ℝ)) :: r) = negRev r ++ (0, 0) :: r := by
    unfold UserDefined.mirror
    rw [if_neg hnoneg]; rfl
  obtain ⟨i, z, hiz⟩ : ∃ i z, r = i ++ [z] := ⟨r.dropLast, r.getLast hrne, (List.dropLast_append_getLast hrne).symm⟩
  have hnr : negRev r = (-z.1, -z.2) :: negRev i := by rw [hiz]; simp [negRev]
  have hlast : ((-z.1, -z.2) :: (negRev i ++ (0, 0) :: r)).getLast (List.cons_ne_nil _ _) = z := by
    simp [hiz]
  have hl' : l = ⟨negRev r ++ (0, 0) :: r, -z.1, z.1⟩ := by
    unfold UserDefined.new? at hl
    have hz : (0 :: x').zip (0 :: y') = ((0:ℝ), (0:ℝ)) :: r := by simp [hr]
    simp only [List.length_cons, hlen, ne_eq, not_true_eq_false, if_false, hz, hmir] at hl
    rw [hnr] at hl
    simp only [List.cons_append, UserDefined.extend] at hl
    norm_num at hl
    rw [← hl, hnr]
    simp only [List.cons_append]
    congr 1
    simp [hiz]
  have hzx : z.1 = x'.getLast hne := by
    have h1 : (r.map Prod.fst) = x' := by rw [hr]; exact List.map_fst_zip (by omega)
    have h2 : (r.map Prod.fst).getLast (by simpa using hrne) = z.1 := by simp [hiz]
    rw [← h2]; congr 1
  have hz : 2e-6 ≤ z.1 := by rw [hzx]; exact hbig hne
  subst hl'
  unfold UserDefined.stress
  simp only [UserDefined.ult]
  rw [snap_sym hz]
  apply interp_odd
  · -- increasing
    unfold Increasing
    rw [List.pairwise_append]
    refine ⟨?_, hinc', ?_⟩
    · have := (List.pairwise_cons.1 hinc').2
      unfold negRev
      rw [List.pairwise_map, List.pairwise_reverse]
      exact this.imp (by intro a b h; simpa using h)
    · intro p hp q hq
      unfold negRev at hp
      obtain ⟨a, ha, rfl⟩ := List.mem_map.1 hp
      have ha := hpos a (List.mem_reverse.1 ha)
      rcases List.mem_cons.1 hq with rfl | hq
      · simpa using ha
      · have := hpos q hq; simp only; linarith
  · simp [negRev, Function.comp_def]

example : ∃ l, UserDefined.new? [0, 0.002, 0.01] [0, 400, 500] none 0 = .ok l := by
  simp [UserDefined.new?, UserDefined.mirror, UserDefined.extend]
  norm_num

/-- When the first given strain is positive the constructor drops its mirror image, and the
result is not odd: data `(1, 1), (2, 3)` give stress `-5/3` at `-1` and `1` at `1`. -/
theorem C17_odd_violated :
    ∃ l, UserDefined.new? [1, 2] [1, 3] none 0 = .ok l ∧ l.stress 1 = 1 ∧ l.stress (-1) = -5/3 := by
  have hm : UserDefined.mirror (([1, 2] : List ℝ).zip [1, 3]) = [(-2, -3), (1, 1), (2, 3)] := by
    simp [UserDefined.mirror]
  refine ⟨⟨[(-2, -3), (1, 1), (2, 3)], -2, 2⟩, ?_, ?_, ?_⟩
  · unfold UserDefined.new?
    rw [hm]; simp [UserDefined.extend]
  · have : snap (UserDefined.ult ⟨[(-2, -3), (1, 1), (2, 3)], -2, 2⟩) 1 = 1 := by
      apply snap_of_clear <;> simp only [UserDefined.ult, Clear] <;> norm_num [abs_of_nonneg, abs_of_neg]
    rw [UserDefined.stress, this]
    norm_num [interp, interpGo]
  · have : snap (UserDefined.ult ⟨[(-2, -3), (1, 1), (2, 3)], -2, 2⟩) (-1) = -1 := by
      apply snap_of_clear <;> simp only [UserDefined.ult, Clear] <;> norm_num [abs_of_nonneg, abs_of_neg]
    rw [UserDefined.stress, this]
    norm_num [interp, interpGo]

/-! ### Extension flags

`p0` is the first, `p1` the second, `pm` the last but one and `pn` the last data point after
mirroring; the law is extended to 100 times the end strains. -/

theorem C17_flag (p0 p1 : ℝ × ℝ) (mid : List (ℝ × ℝ)) (pm pn : ℝ × ℝ)
    (hs : Increasing (p0 :: p1 :: mid ++ [pm, pn])) (hneg : p0.1 < 0) (hpos : 0 < pn.1) :
    ∀ flag, (flag = 1 ∨ flag = 2 ∨ flag = 3) →
      ∃ ext, UserDefined.extend flag (p0 :: p1 :: mid ++ [pm, pn]) = .ok ext ∧ Increasing ext ∧
        (∀ e, pn.1 ≤ e → e ≤ 100 * pn.1 → interp e ext 0 0 =
          match flag with
          | 1 => pn.2
          | 2 => pn.2 + (pn.2 - pm.2) / (pn.1 - pm.1) * (e - pn.1)
          | _ => pn.2 / pn.1 * e) ∧
        (∀ e, 100 * p0.1 ≤ e → e ≤ p0.1 → interp e ext 0 0 =
          match flag with
          | 1 => p0.2
          | 2 => p0.2 + (p1.2 - p0.2) / (p1.1 - p0.1) * (e - p0.1)
          | _ => p0.2 / p0.1 * e) ∧
        (∀ e, p0.1 ≤ e → e ≤ pn.1 →
          interp e ext 0 0 = interp e (p0 :: p1 :: mid ++ [pm, pn]) 0 0) := by
  have key : ∀ (a b : ℝ),
      let ext := (p0.1 * 100, a) :: (p0 :: p1 :: mid ++ [pm, pn]) ++ [(pn.1 * 100, b)]
      Increasing ext ∧
      (∀ e, pn.1 ≤ e → e ≤ 100 * pn.1 → interp e ext 0 0 = chord pn (pn.1 * 100, b) e) ∧
      (∀ e, 100 * p0.1 ≤ e → e ≤ p0.1 → interp e ext 0 0 = chord (p0.1 * 100, a) p0 e) ∧
      (∀ e, p0.1 ≤ e → e ≤ pn.1 →
          interp e ext 0 0 = interp e (p0 :: p1 :: mid ++ [pm, pn]) 0 0) := by
    intro a b ext
    have hlow : ∀ q ∈ p0 :: p1 :: mid ++ [pm, pn], p0.1 ≤ q.1 := by
      intro q hq
      rcases List.mem_cons.1 hq with rfl | hq
      · exact le_rfl
      · exact ((List.pairwise_cons.1 hs).1 q hq).le
    have hhigh : ∀ q ∈ p0 :: p1 :: mid ++ [pm, pn], q.1 ≤ pn.1 := by
      have hs' : Increasing ((p0 :: p1 :: mid ++ [pm]) ++ [pn]) := by simpa using hs
      intro q hq
      have : q ∈ (p0 :: p1 :: mid ++ [pm]) ++ [pn] := by simpa using hq
      rcases List.mem_append.1 this with h | h
      · exact ((List.pairwise_append.1 hs').2.2 q h pn (by simp)).le
      · simp at h; rw [h]
    have hinc : Increasing ext := by
      unfold Increasing
      simp only [ext]
      rw [List.pairwise_append, List.pairwise_cons]
      refine ⟨⟨?_, hs⟩, by simp, ?_⟩
      · intro q hq; have := hlow q hq; simp only; linarith
      · intro q hq r hr
        simp only [List.mem_singleton] at hr; subst hr
        rcases List.mem_cons.1 hq with rfl | hq
        · simp only; nlinarith [hlow pn (by simp)]
        · have := hhigh q hq; simp only; linarith
    refine ⟨hinc, ?_, ?_, ?_⟩
    · intro e h1 h2
      have : ext = ((p0.1 * 100, a) :: (p0 :: p1 :: mid ++ [pm])) ++ pn :: (pn.1 * 100, b) :: [] := by
        simp [ext]
      rw [this] at hinc ⊢
      exact interp_segment _ _ _ _ hinc h1 (by simp only; linarith) 0 0
    · intro e h1 h2
      have : ext = [] ++ (p0.1 * 100, a) :: p0 :: (p1 :: mid ++ [pm, pn] ++ [(pn.1 * 100, b)]) := by
        simp [ext]
      rw [this] at hinc ⊢
      exact interp_segment _ _ _ _ hinc (by simp only; linarith) h2 0 0
    · intro e h1 h2
      rcases locate p0 (p1 :: mid ++ [pm, pn]) e hs with h | h | ⟨h, -⟩ | ⟨pre, c, d, post, he, g1, g2⟩
      · linarith
      · have := h pn (by simp); linarith
      · simp at h
      · have e1 : p0 :: p1 :: mid ++ [pm, pn] = pre ++ c :: d :: post := by rw [← he]; simp
        have e2 : ext = ((p0.1 * 100, a) :: pre) ++ c :: d :: (post ++ [(pn.1 * 100, b)]) := by
          simp only [ext]; rw [e1]; simp
        rw [e1] at hs ⊢
        rw [e2] at hinc ⊢
        rw [interp_segment _ _ _ _ hs g1 g2, interp_segment _ _ _ _ hinc g1 g2]
  have hlast : ((p0 :: (p1 :: (mid ++ [pm, pn]))).getLast (List.cons_ne_nil _ _)) = pn := by simp
  have hprev : ((p0 :: (p1 :: (mid ++ [pm, pn]))).dropLast.getLastD p0) = pm := by
    have : (p0 :: (p1 :: (mid ++ [pm, pn]))) = (p0 :: p1 :: mid ++ [pm]) ++ [pn] := by simp
    rw [this, List.dropLast_concat]
    have : (p0 :: p1 :: mid ++ [pm]).getLastD p0 = pm := by
      rw [List.getLastD_eq_getLast?, List.getLast?_concat]; rfl
    exact this
  have hn0 : p0.1 ≠ 0 := by linarith
  have hp0 : pn.1 ≠ 0 := by linarith
  rintro flag (rfl | rfl | rfl)
  · have := key p0.2 pn.2
    refine ⟨_, ?_, this.1, fun e h1 h2 => ?_, fun e h1 h2 => ?_, this.2.2.2⟩
    · simp only [List.cons_append, UserDefined.extend, hlast]
    · rw [this.2.1 e h1 h2]; simp [chord]
    · rw [this.2.2.1 e h1 h2]; simp [chord]
  · have := key ((p0.1 * 100 - p0.1) * ((p1.2 - p0.2) / (p1.1 - p0.1)) + p0.2)
      ((pn.1 * 100 - pn.1) * ((pn.2 - pm.2) / (pn.1 - pm.1)) + pn.2)
    refine ⟨_, ?_, this.1, fun e h1 h2 => ?_, fun e h1 h2 => ?_, this.2.2.2⟩
    · simp only [List.cons_append, UserDefined.extend, hlast, hprev]
    · rw [this.2.1 e h1 h2]; simp only [chord]
      have : pn.1 * 100 - pn.1 ≠ 0 := by intro h; apply hp0; linarith
      generalize (pn.2 - pm.2) / (pn.1 - pm.1) = t
      field_simp; ring
    · rw [this.2.2.1 e h1 h2]; simp only [chord]
      have : p0.1 - p0.1 * 100 ≠ 0 := by intro h; apply hn0; linarith
      generalize (p1.2 - p0.2) / (p1.1 - p0.1) = t
      field_simp; ring
  · have := key ((p0.1 * 100 - p0.1) * (p0.2 / p0.1) + p0.2)
      ((pn.1 * 100 - pn.1) * (pn.2 / pn.1) + pn.2)
    refine ⟨_, ?_, this.1, fun e h1 h2 => ?_, fun e h1 h2 => ?_, this.2.2.2⟩
    · simp only [List.cons_append, UserDefined.extend, hlast]
    · rw [this.2.1 e h1 h2]; simp only [chord]
      have : pn.1 * 100 - pn.1 ≠ 0 := by intro h; apply hp0; linarith
      have h3 : pn.2 = pn.2 / pn.1 * pn.1 := by field_simp
      generalize pn.2 / pn.1 = t at *
      rw [h3]; field_simp; ring
    · rw [this.2.2.1 e h1 h2]; simp only [chord]
      have : p0.1 - p0.1 * 100 ≠ 0 := by intro h; apply hn0; linarith
      have h3 : p0.2 = p0.2 / p0.1 * p0.1 := by field_simp
      generalize p0.2 / p0.1 = t at *
      rw [h3]; field_simp; ring

example : Increasing [((-2:ℝ), (-3:ℝ)), (-1, -2), (1, 2), (2, 3)] := by
  unfold Increasing; norm_num

/-! ### Scalar/array agreement (C05, C06) -/

theorem C05_userdefined (l : UserDefined) (h : Clear l.ult_p l.ult_n) :
    Agree l.stress (fun _ => l.stressArr) := by
  intro ι eps i
  simp only [UserDefined.stressArr, UserDefined.stress]
  rw [snapArr_apply ((not_isclose_iff _ _).2 h)]

example : Clear (0.01 : ℝ) (-0.01) := by unfold Clear; norm_num [abs_of_nonneg, abs_of_neg]

theorem C06_userdefined (l : UserDefined) : Agree l.tangent (fun _ => l.tangentArr) := by
  intro ι eps i
  simp only [UserDefined.tangentArr, UserDefined.tangent, maskSet_apply]
  grind

end SC

namespace SC

open Classical Spec Filter Topology

/-- C10 for this law: strictly inside a data segment, away from the tolerance bands. -/
theorem C10_userdefined (l : UserDefined) (hs : Increasing l.pts)
    {pre post : List (ℝ × ℝ)} {p q : ℝ × ℝ} (hp : l.pts = pre ++ p :: q :: post) {e : ℝ}
    (h1 : p.1 < e) (h2 : e < q.1) (hc : Clear e l.ult_n ∧ Clear e l.ult_p) :
    HasDerivAt l.stress (l.tangent e) e := by
  rw [l.tangent_segment hs hp h1 h2.le]
  have hd : HasDerivAt (chord p q) ((q.2 - p.2) / (q.1 - p.1)) e := by
    have := (((hasDerivAt_id e).sub_const p.1).const_mul ((q.2 - p.2) / (q.1 - p.1))).const_add p.2
    rw [mul_one] at this
    exact this
  refine hasDerivAt_snapped (core := fun x => interp x l.pts 0 0) (lim := l.ult) hc.1 hc.2 hd ?_
  filter_upwards [lt_mem_nhds h1, gt_mem_nhds h2] with x a b
  rw [hp]
  rw [hp] at hs
  exact interp_segment pre p q post hs a.le b.le 0 0

/-- C13, uniform strain: the constant returned is the stress, at every strain. -/
theorem C13_userdefined_uniform (l : UserDefined) (hs : Increasing l.pts) (h2 : 2 ≤ l.pts.length)
    (e0 y : ℝ) : (l.marin e0 0).1.ranges = none ∧ ∃ c, (l.marin e0 0).1.coeffs = [c] ∧
      evalPoly c y = l.stress e0 := by
  simp only [UserDefined.marin, if_true]
  exact ⟨trivial, _, rfl, marinFind_eq _ hs h2 _ _⟩

/-- C13, strain gradient. -/
theorem C13_userdefined (l : UserDefined) (hs : Increasing l.pts) (h2 : 2 ≤ l.pts.length)
    (e0 e1 : ℝ) (he : e1 ≠ 0) :
    (∃ rs, (l.marin e0 e1).1.ranges = some rs ∧
      PiecesMatch l.stress e0 e1 (fun e => Clear e l.ult_n ∧ Clear e l.ult_p) rs
        (l.marin e0 e1).1.coeffs) ∧
    (∃ rs, (l.marinT e0 e1).1.ranges = some rs ∧
      PiecesMatchInterior l.tangent e0 e1 (fun _ => True) rs (l.marinT e0 e1).1.coeffs) := by
  constructor
  · simp only [UserDefined.marin, if_neg he]
    refine ⟨_, rfl, (marinRanges_lengths e0 e1 l.pts).1, (marinRanges_tiling _ hs).1, ?_, ?_⟩
    · intro rc hrc y hok hlo hhi
      obtain ⟨pre, p, q, post, hp, r1, r2⟩ := zip_marin e0 e1 l.pts rc hrc
      rw [r1] at hlo hhi
      rw [C17_chord l hs hp hlo hhi hok, r2]
      simp only [evalPoly]; ring
    · intro y hok hout
      cases hp : l.pts with
      | nil => rw [hp] at h2; simp at h2
      | cons p pts =>
        have hs' := hs
        rw [hp] at hs' 
        rcases locate p pts (e0 + e1 * y) hs' with h | h | ⟨h, -⟩ | ⟨pre, a, b, post, hab, g1, g2⟩
        · refine C17_outside l hok (.inl ?_)
          rw [hp]; intro q hq
          rcases List.mem_cons.1 hq with rfl | hq
          · exact h
          · have := (List.pairwise_cons.1 hs').1 q hq; linarith
        · refine C17_outside l hok (.inr ?_)
          rw [hp]; exact h
        · rw [hp, h] at h2; simp at h2
        · exfalso
          have := hout (a.1, b.1) (by rw [hp, hab]; exact mem_marinRanges _ _ _ _)
          simp only at this
          rcases this with h | h <;> linarith
  · simp only [UserDefined.marinT, if_neg he]
    refine ⟨_, rfl, ?_, (marinRanges_tiling _ hs).1, ?_, ?_⟩
    · rw [List.length_map]; exact (marinRanges_lengths e0 e1 l.pts).2
    · intro rc hrc y hok hlo hhi
      obtain ⟨pre, p, q, post, hp, r1, r2⟩ := zip_marinT l.pts rc hrc
      rw [r1] at hlo hhi
      rw [l.tangent_segment hs hp hlo hhi.le, r2]
      simp [evalPoly]
    · intro y hok hout
      cases hp : l.pts with
      | nil => rw [hp] at h2; simp at h2
      | cons p pts =>
        have hs' := hs
        rw [hp] at hs'
        unfold UserDefined.tangent
        rcases locate p pts (e0 + e1 * y) hs' with h | h | ⟨h, -⟩ | ⟨pre, a, b, post, hab, g1, g2⟩
        · rw [if_pos]; left; rw [hp]; simpa using h
        · rw [if_pos]; right; rw [hp]
          have := h ((p :: pts).getLast (by simp)) (List.getLast_mem _)
          have e : (List.map Prod.fst (p :: pts)).getLastD 0 = ((p :: pts).getLast (by simp)).1 := by
            rw [List.getLastD_eq_getLast?, List.getLast?_map,
              List.getLast?_eq_getLast_of_ne_nil (by simp)]
            rfl
          rw [e]; exact this
        · rw [hp, h] at h2; simp at h2
        · exfalso
          have := hout (a.1, b.1) (by rw [hp, hab]; exact mem_marinRanges _ _ _ _)
          simp only at this
          rcases this with h | h <;> linarith

example : Increasing [((-0.01:ℝ), (-500:ℝ)), (-0.002, -400), (0, 0), (0.002, 400), (0.01, 500)] := by
  unfold Increasing; norm_num

end SC
