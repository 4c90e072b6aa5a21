import Verif.Lemmas.Parallel
import Verif.Props.MarinLaws

/-!
# C16: laws in parallel, and C14 for ranges
-/

set_option autoImplicit false

namespace SC

open Classical Spec Parallel

/-- the weighted sum of the components, the specification of `Parallel` -/
noncomputable def weightedSum (weights : List ℝ) (fs : List (ℝ → ℝ)) (e : ℝ) : ℝ :=
  ((weights.zip fs).map fun wf => wf.1 * wf.2 e).sum

theorem foldl_add_sum {α : Type*} (l : List α) (g : α → ℝ) (a : ℝ) :
    l.foldl (fun s x => s + g x) a = a + (l.map g).sum := by
  induction l generalizing a with
  | nil => simp
  | cons x l ih => simp only [List.foldl_cons, List.map_cons, List.sum_cons, ih]; ring

theorem zip_map_right' {α β γ : Type*} (l : List α) (m : List β) (g : β → γ) :
    l.zip (m.map g) = (l.zip m).map fun x => (x.1, g x.2) := by
  induction l generalizing m with
  | nil => simp
  | cons a l ih => cases m <;> simp [ih]

/-- **C16**, constructor: equal lengths (or no weights) and only laws, otherwise TypeError /
ValueError. -/
theorem C16_constructor (ls : List FullLaw) (w : List ℝ) :
    (Parallel.new? (ls.map .law) none = .ok ⟨ls, List.replicate ls.length 1⟩) ∧
    (w.length = ls.length → Parallel.new? (ls.map .law) (some w) = .ok ⟨ls, w⟩) ∧
    (w.length ≠ ls.length → Parallel.new? (ls.map .law) (some w) = .error .valueError) ∧
    (∀ args ws, LawArg.other ∈ args → Parallel.new? args ws = .error .typeError) := by
  have h : ∀ ls : List FullLaw, (ls.map LawArg.law).mapM LawArg.toLaw? = some ls := by
    intro ls
    induction ls with
    | nil => rfl
    | cons a l ih => rw [List.map_cons, List.mapM_cons, ih]; rfl
  refine ⟨?_, ?_, ?_, ?_⟩
  · simp only [Parallel.new?, h]
  · intro hw; simp only [Parallel.new?, h, hw, ne_eq, not_true, if_false]
  · intro hw; simp only [Parallel.new?, h, ne_eq, hw, not_false_eq_true, if_true]
  · intro args ws hm
    have : args.mapM LawArg.toLaw? = none := by
      induction args with
      | nil => simp at hm
      | cons a l ih =>
        cases a with
        | other => rw [List.mapM_cons]; rfl
        | law b =>
          have := ih (by simpa using hm)
          rw [List.mapM_cons, this]; rfl
    simp only [Parallel.new?, this]

/-- **C16**, scalar stress and tangent: the weighted sums of the components. -/
theorem C16_sum (p : Parallel) (e : ℝ) :
    p.stress e = weightedSum p.weights (p.laws.map fun l => l.law.stress) e ∧
    p.tangent e = weightedSum p.weights (p.laws.map fun l => l.law.tangent) e := by
  constructor
  · rw [Parallel.stress, foldl_add_sum _ (fun wl : ℝ × FullLaw => wl.1 * wl.2.law.stress e), weightedSum, zip_map_right', List.map_map]
    simp [Function.comp_def]
  · rw [Parallel.tangent, foldl_add_sum _ (fun wl : ℝ × FullLaw => wl.1 * wl.2.law.tangent e), weightedSum, zip_map_right', List.map_map]
    simp [Function.comp_def]

/-- **C16**, ultimate strain: the smallest negative and the largest positive limit of the parts. -/
theorem C16_ultimate (p : Parallel) (b : Bool) (hne : p.laws ≠ []) :
    ∃ u, p.ult b = some u ∧
      (∀ l ∈ p.laws, u.1 ≤ (l.law.ult b).1 ∧ (l.law.ult b).2 ≤ u.2) ∧
      (∃ l ∈ p.laws, u.1 = (l.law.ult b).1) ∧ (∃ l ∈ p.laws, u.2 = (l.law.ult b).2) := by
  have key : ∀ (ls : List FullLaw) (a : ℝ × ℝ), ∃ u,
      ls.foldl (fun acc l =>
        match acc with
        | none => some (l.law.ult b)
        | some a => some (min a.1 (l.law.ult b).1, max a.2 (l.law.ult b).2)) (some a) = some u ∧
      u.1 ≤ a.1 ∧ a.2 ≤ u.2 ∧
      (∀ l ∈ ls, u.1 ≤ (l.law.ult b).1 ∧ (l.law.ult b).2 ≤ u.2) ∧
      (u.1 = a.1 ∨ ∃ l ∈ ls, u.1 = (l.law.ult b).1) ∧ (u.2 = a.2 ∨ ∃ l ∈ ls, u.2 = (l.law.ult b).2) := by
    intro ls
    induction ls with
    | nil => intro a; exact ⟨a, rfl, le_rfl, le_rfl, by simp, Or.inl rfl, Or.inl rfl⟩
    | cons l ls ih =>
      intro a
      obtain ⟨u, h1, h2, h3, h4, h5, h6⟩ := ih (min a.1 (l.law.ult b).1, max a.2 (l.law.ult b).2)
      refine ⟨u, h1, h2.trans (min_le_left _ _), (le_max_left _ _).trans h3, ?_, ?_, ?_⟩
      · intro l' hl'
        rcases List.mem_cons.1 hl' with rfl | hl'
        · exact ⟨h2.trans (min_le_right _ _), (le_max_right _ _).trans h3⟩
        · exact h4 l' hl'
      · rcases h5 with h5 | ⟨l', hl', h5⟩
        · rcases min_choice a.1 (l.law.ult b).1 with hm | hm
          · left; rw [h5, hm]
          · right; exact ⟨l, by simp, by rw [h5, hm]⟩
        · right; exact ⟨l', by simp [hl'], h5⟩
      · rcases h6 with h6 | ⟨l', hl', h6⟩
        · rcases max_choice a.2 (l.law.ult b).2 with hm | hm
          · left; rw [h6, hm]
          · right; exact ⟨l, by simp, by rw [h6, hm]⟩
        · right; exact ⟨l', by simp [hl'], h6⟩
  cases hp : p.laws with
  | nil => exact absurd hp hne
  | cons l ls =>
    obtain ⟨u, h1, h2, h3, h4, h5, h6⟩ := key ls (l.law.ult b)
    refine ⟨u, by rw [Parallel.ult, hp]; exact h1, ?_, ?_, ?_⟩
    · intro l' hl'
      rcases List.mem_cons.1 hl' with rfl | hl'
      · exact ⟨h2, h3⟩
      · exact h4 l' hl'
    · rcases h5 with h5 | ⟨l', hl', h5⟩
      · exact ⟨l, by simp, h5⟩
      · exact ⟨l', by simp [hl'], h5⟩
    · rcases h6 with h6 | ⟨l', hl', h6⟩
      · exact ⟨l, by simp, h6⟩
      · exact ⟨l', by simp [hl'], h6⟩

theorem sum_congr_zip {W : List ℝ} {α : Type*} (outs : List α) (f g : α → ℝ)
    (h : ∀ o ∈ outs, f o = g o) :
    ((W.zip outs).map fun wo => wo.1 * f wo.2).sum = ((W.zip outs).map fun wo => wo.1 * g wo.2).sum := by
  congr 1
  apply List.map_congr_left
  intro wo hwo
  rw [h _ (List.of_mem_zip hwo).2]

/-- **C16**, Marin data of piecewise laws: if every component's pieces reproduce the component,
then the combined pieces reproduce the weighted sum (inside every combined range, and zero
outside), for any number of laws with any overlapping of their ranges. -/
theorem splitMarin_pieces {α : Type*} (weights : List ℝ) (L : List α) (F : α → ℝ → ℝ)
    (O : α → MarinOut) (e0 e1 : ℝ) (ok : ℝ → Prop)
    (h : ∀ l ∈ L, ∃ rs, (O l).ranges = some rs ∧
      PiecesMatchInterior (F l) e0 e1 ok rs (O l).coeffs)
    (hne : ∀ l ∈ L, (O l).ranges ≠ some [])
    (hnd : ∃ l ∈ L, ∃ rs, (O l).ranges = some rs ∧ ∃ r ∈ rs, r.1 < r.2) :
    ∃ out rs, splitMarin weights (L.map O) = .ok out ∧ out.ranges = some rs ∧
      PiecesMatchInterior (weightedSum weights (L.map F)) e0 e1 ok rs out.coeffs := by
  set bps := breakpoints (L.map O) with hbps
  have hb : bps.Pairwise (· < ·) := breakpoints_sorted _
  obtain ⟨c1, c2⟩ := consecutive_spec bps hb
  have hin : ∀ l ∈ L, ∀ rs, (O l).ranges = some rs → ∀ r ∈ rs, r.1 ∈ bps ∧ r.2 ∈ bps := by
    intro l hl rs hrs r hr
    constructor <;> rw [hbps, mem_breakpoints]
    · exact ⟨O l, List.mem_map_of_mem hl, rs, hrs, r, hr, Or.inl rfl⟩
    · exact ⟨O l, List.mem_map_of_mem hl, rs, hrs, r, hr, Or.inr rfl⟩
  have hmap : ∀ o ∈ L.map O, lawMap o (consecutive bps) = .ok (mapCoeffs (sortedPieces o) (consecutive bps)) := by
    intro o ho
    obtain ⟨l, hl, rfl⟩ := List.mem_map.1 ho
    obtain ⟨rs, hrs, hp⟩ := h l hl
    have hzn : sortedPieces (O l) ≠ [] := by
      intro h0
      have := (sortedPieces_perm (O l)).length_eq
      rw [h0, hrs] at this
      simp only [List.length_nil, Option.getD_some, List.length_zip, ← hp.length, min_self] at this
      apply hne l hl
      rw [hrs, List.length_eq_zero_iff.1 this.symm]
    simp only [lawMap, hrs]
    have : sortedPieces (O l) = (rs.zip (O l).coeffs).mergeSort (fun a b => decide (a.1.1 ≤ b.1.1)) := by
      simp [sortedPieces, hrs]
    rw [← this, if_neg hzn]
  have hpos : 0 < (consecutive bps).length := by
    obtain ⟨l, hl, rs, hrs, r, hr, hlt⟩ := hnd
    obtain ⟨b1, b2⟩ := hin l hl rs hrs r hr
    rcases hbl : bps with _ | ⟨a, _ | ⟨b, t⟩⟩
    · rw [hbl] at b1; simp at b1
    · rw [hbl] at b1 b2; simp at b1 b2; linarith
    · simp [consecutive]
  have hmax : max (consecutive bps).length 1 = (consecutive bps).length := by omega
  have hlen0 : (consecutive bps).length ≠ 0 := by omega
  refine ⟨⟨some (consecutive bps), (List.range (consecutive bps).length).map fun i =>
      combine (weights.zip ((L.map O).map fun o => (mapCoeffs (sortedPieces o) (consecutive bps)).getD i []))⟩,
      consecutive bps, ?_, rfl, ?_⟩
  · simp only [splitMarin, ← hbps]
    rw [mapM_ok _ (fun o => mapCoeffs (sortedPieces o) (consecutive bps)) _ hmap]
    simp only [hmax, if_neg hlen0]
    rw [if_neg]
    · simp [List.map_map, Function.comp_def]
    · simp [mapCoeffs_length]
  · refine ⟨by simp, ⟨fun r hr => (c1 r hr).1.le, c2.imp fun h => Or.inl h⟩, ?_, ?_⟩
    · intro rc hrc y hok h1 h2
      obtain ⟨i, hi, rfl⟩ := List.mem_iff_getElem.1 hrc
      simp only [List.length_zip, List.length_map, List.length_range, min_self] at hi
      simp only [List.getElem_zip, List.getElem_map, List.getElem_range] at h1 h2 ⊢
      rw [evalPoly_combine, weightedSum, List.map_map, zip_map_right', zip_map_right', List.map_map,
        List.map_map]
      refine sum_congr_zip L (fun l => evalPoly ((mapCoeffs (sortedPieces (O l))
        (consecutive bps)).getD i []) y) (fun l => F l (e0 + e1 * y)) ?_
      intro l hl
      obtain ⟨rs, hrs, hp⟩ := h l hl
      have hi' : i < (mapCoeffs (sortedPieces (O l)) (consecutive bps)).length := by
        rw [mapCoeffs_length]; exact hi
      refine selected_piece hrs hp bps hb (hin l hl rs hrs)
        ((consecutive bps)[i], (mapCoeffs (sortedPieces (O l)) (consecutive bps)).getD i []) ?_ y hok h1 h2
      rw [List.mem_iff_getElem]
      refine ⟨i, by simp [hi, hi'], ?_⟩
      simp [List.getElem_zip, hi']
    · intro y hok hout
      rw [weightedSum, zip_map_right', List.map_map]
      have hz : ∀ l ∈ L, F l (e0 + e1 * y) = 0 := by
        intro l hl
        obtain ⟨rs, hrs, hp⟩ := h l hl
        refine hp.outside y hok fun r hr => ?_
        obtain ⟨b1, b2⟩ := hin l hl rs hrs r hr
        rcases consecutive_cover bps hb _ hout with hc | hc | hc
        · exact Or.inl (hc _ b1)
        · exact Or.inr (hc _ b2)
        · rw [hc] at hpos; simp [consecutive] at hpos
      have := sum_congr_zip (W := weights) L (fun l => F l (e0 + e1 * y)) (fun _ => 0) hz
      simp only [Function.comp_def]
      rw [this]
      simp

theorem collect_pure (ms : List (ℝ → ℝ → MarinOut × ℝ)) (e0 e1 : ℝ) (h : ∀ m ∈ ms, (m e0 e1).2 = e0) :
    collect ms e0 e1 = (ms.map fun m => (m e0 e1).1, e0) := by
  induction ms with
  | nil => rfl
  | cons m ms ih =>
    have h1 := h m (by simp)
    simp only [collect, h1, ih (fun m' hm' => h m' (by simp [hm'])), List.map_cons]

/-- **C16** for `Parallel.__marin__` on a non-uniform profile (no component assigns `strain[0]`
then, `C16_no_mutation`), all components having strain ranges. -/
theorem C16_marin_partial (p : Parallel) (e0 e1 : ℝ) (ok : ℝ → Prop)
    (hm : ∀ l ∈ p.laws, (l.marin e0 e1).2 = e0)
    (h : ∀ l ∈ p.laws, ∃ rs, (l.marin e0 e1).1.ranges = some rs ∧
      PiecesMatchInterior l.law.stress e0 e1 ok rs (l.marin e0 e1).1.coeffs)
    (hne : ∀ l ∈ p.laws, (l.marin e0 e1).1.ranges ≠ some [])
    (hnd : ∃ l ∈ p.laws, ∃ rs, (l.marin e0 e1).1.ranges = some rs ∧ ∃ r ∈ rs, r.1 < r.2) :
    ∃ out rs, (p.marin e0 e1).1 = .ok out ∧ (p.marin e0 e1).2 = e0 ∧ out.ranges = some rs ∧
      PiecesMatchInterior p.stress e0 e1 ok rs out.coeffs := by
  obtain ⟨out, rs, h1, h2, h3⟩ := splitMarin_pieces p.weights p.laws (fun l : FullLaw => l.law.stress)
    (fun l : FullLaw => (l.marin e0 e1).1) e0 e1 ok h hne hnd
  have hc : collect (p.laws.map FullLaw.marin) e0 e1 = (p.laws.map fun l => (l.marin e0 e1).1, e0) := by
    rw [collect_pure _ _ _ (by
      intro m hm'; obtain ⟨l, hl, rfl⟩ := List.mem_map.1 hm'; exact hm l hl), List.map_map]
    rfl
  have hs : p.stress = weightedSum p.weights (p.laws.map fun l => l.law.stress) := by
    funext e; exact (C16_sum p e).1
  refine ⟨out, rs, ?_, ?_, h2, hs ▸ h3⟩
  · simp only [Parallel.marin, hc, h1]
  · simp only [Parallel.marin, hc]

/-- Same for `Parallel.__marin_tangent__`. -/
theorem C16_marin_tangent_partial (p : Parallel) (e0 e1 : ℝ) (ok : ℝ → Prop)
    (hm : ∀ l ∈ p.laws, (l.marinT e0 e1).2 = e0)
    (h : ∀ l ∈ p.laws, ∃ rs, (l.marinT e0 e1).1.ranges = some rs ∧
      PiecesMatchInterior l.law.tangent e0 e1 ok rs (l.marinT e0 e1).1.coeffs)
    (hne : ∀ l ∈ p.laws, (l.marinT e0 e1).1.ranges ≠ some [])
    (hnd : ∃ l ∈ p.laws, ∃ rs, (l.marinT e0 e1).1.ranges = some rs ∧ ∃ r ∈ rs, r.1 < r.2) :
    ∃ out rs, (p.marinT e0 e1).1 = .ok out ∧ (p.marinT e0 e1).2 = e0 ∧ out.ranges = some rs ∧
      PiecesMatchInterior p.tangent e0 e1 ok rs out.coeffs := by
  obtain ⟨out, rs, h1, h2, h3⟩ := splitMarin_pieces p.weights p.laws (fun l : FullLaw => l.law.tangent)
    (fun l : FullLaw => (l.marinT e0 e1).1) e0 e1 ok h hne hnd
  have hc : collect (p.laws.map FullLaw.marinT) e0 e1 = (p.laws.map fun l => (l.marinT e0 e1).1, e0) := by
    rw [collect_pure _ _ _ (by
      intro m hm'; obtain ⟨l, hl, rfl⟩ := List.mem_map.1 hm'; exact hm l hl), List.map_map]
    rfl
  have hs : p.tangent = weightedSum p.weights (p.laws.map fun l => l.law.tangent) := by
    funext e; exact (C16_sum p e).2
  refine ⟨out, rs, ?_, ?_, h2, hs ▸ h3⟩
  · simp only [Parallel.marinT, hc, h1]
  · simp only [Parallel.marinT, hc]

/-- The modelled laws assign `strain[0]` only for a uniform profile. -/
theorem C16_no_mutation (e0 e1 : ℝ) (he : e1 ≠ 0) :
    (∀ l : Elastic, (l.marin e0 e1).2 = e0) ∧ (∀ l : ElasticPlastic, (l.marin e0 e1).2 = e0) ∧
    (∀ l : ParabolaRectangle, (l.marin e0 e1).2 = e0) ∧ (∀ l : Bilinear, (l.marin e0 e1).2 = e0) := by
  refine ⟨fun l => rfl, fun l => ?_, fun l => ?_, fun l => ?_⟩
  · simp [ElasticPlastic.marin, he]
  · simp [ParabolaRectangle.marin, he]
  · simp [Bilinear.marin, he]

/-- an elastic law as a component -/
noncomputable def Elastic.full (l : Elastic) : FullLaw :=
  ⟨l.law, fun _ e => (l.stressArr e, e), l.marin, l.marinT⟩

/-- a bilinear concrete law as a component -/
noncomputable def Bilinear.full (l : Bilinear) : FullLaw :=
  ⟨l.law, fun _ => l.getStressCall, l.marin, l.marinT⟩

/-- an elastic-plastic law as a component -/
noncomputable def ElasticPlastic.full (l : ElasticPlastic) : FullLaw :=
  ⟨l.law, fun _ => l.getStressCall, l.marin, l.marinT⟩

theorem Spec.PiecesMatch.interior {f : ℝ → ℝ} {e0 e1 : ℝ} {ok : ℝ → Prop} {rs : List (ℝ × ℝ)}
    {cs : List (List ℝ)} (h : PiecesMatch f e0 e1 ok rs cs) : PiecesMatchInterior f e0 e1 ok rs cs :=
  ⟨h.length, h.tiling, fun rc hrc y hok h1 h2 => h.inside rc hrc y hok h1.le h2.le, h.outside⟩

/-- `C16_marin_partial` applies to concrete and steel in parallel (all hypotheses met): a
bilinear concrete law and an elastic-plastic steel law with arbitrary weights. -/
theorem C16_marin_instance (w1 w2 e0 e1 : ℝ) (he : e1 ≠ 0) :
    let c : Bilinear := ⟨-30, -0.002, -0.0035⟩
    let s : ElasticPlastic := ⟨200000, 500, 0, some 0.05⟩
    let p : Parallel := ⟨[c.full, s.full], [w1, w2]⟩
    ∃ out rs, (p.marin e0 e1).1 = .ok out ∧ out.ranges = some rs ∧
      PiecesMatchInterior (fun e => w1 * c.stress e + w2 * s.stress e) e0 e1
        (fun e => (Clear e (-0.0035) ∧ Clear e 100) ∧ (Clear e (-0.05) ∧ Clear e 0.05)) rs out.coeffs := by
  intro c s p
  have hc : Bilinear.new? 30 0.002 (some 0.0035) = .ok c := by
    norm_num [Bilinear.new?, c, abs_of_pos]
  have h1 := (C13_bilinear hc (by norm_num [abs_of_pos]) e0 e1 he).1
  have h2 := (C13_elasticplastic s (u := 0.05) (by norm_num [s]) (by norm_num [s]) (by norm_num [s])
    rfl (by norm_num [s]) e0 e1 he).1
  obtain ⟨rs1, hr1, hp1⟩ := h1
  obtain ⟨rs2, hr2, hp2⟩ := h2
  have hp1' := hp1.interior
  have hp2' := hp2.interior
  have hne1 : rs1 ≠ [] := by
    rintro rfl
    simp [Bilinear.marin, he] at hr1
  have hne2 : rs2 ≠ [] := by
    rintro rfl
    simp [ElasticPlastic.marin, he] at hr2
  obtain ⟨out, rs, a1, -, a3, a4⟩ := C16_marin_partial p e0 e1
    (fun e => (Clear e (-0.0035) ∧ Clear e 100) ∧ (Clear e (-0.05) ∧ Clear e 0.05))
    (by
      intro l hl
      simp only [p, List.mem_cons, List.not_mem_nil, or_false] at hl
      rcases hl with rfl | rfl
      · exact (C16_no_mutation e0 e1 he).2.2.2 c
      · exact (C16_no_mutation e0 e1 he).2.1 s)
    (by
      intro l hl
      simp only [p, List.mem_cons, List.not_mem_nil, or_false] at hl
      rcases hl with rfl | rfl
      · refine ⟨rs1, hr1, hp1'.length, hp1'.tiling, fun rc hrc y hok => hp1'.inside rc hrc y ?_,
          fun y hok => hp1'.outside y ?_⟩ <;>
        · have : |(0.0035 : ℝ)| = 0.0035 := abs_of_pos (by norm_num)
          rw [this]; exact hok.1
      · exact ⟨rs2, hr2, hp2'.length, hp2'.tiling, fun rc hrc y hok => hp2'.inside rc hrc y hok.2,
          fun y hok => hp2'.outside y hok.2⟩)
    (by
      intro l hl
      simp only [p, List.mem_cons, List.not_mem_nil, or_false] at hl
      rcases hl with rfl | rfl
      · intro h; exact hne1 (Option.some.inj (hr1.symm.trans h))
      · intro h; exact hne2 (Option.some.inj (hr2.symm.trans h)))
    (by
      refine ⟨c.full, by simp [p], rs1, hr1, (-0.002, 0), ?_, by norm_num⟩
      have : some rs1 = some [((-0.002 : ℝ), (0 : ℝ)), (-0.0035, -0.002)] := by
        rw [← hr1]; simp [Bilinear.marin, he, c]
      rw [Option.some.inj this]; simp)
  refine ⟨out, rs, a1, a3, ?_⟩
  have hs : p.stress = fun e => w1 * c.stress e + w2 * s.stress e := by
    funext e
    rw [(C16_sum p e).1]
    simp [weightedSum, p, Bilinear.full, ElasticPlastic.full, Bilinear.law, ElasticPlastic.law]
  rw [← hs]; exact a4

/-- **C16 is false when a component has no strain ranges** (an elastic law): its polynomial is
replicated only over the ranges of the other components, so outside them the combined Marin data
give nothing although `get_stress` is not zero.  Elastic `E = 1` in parallel with a bilinear
concrete law, profile `eps(y) = y`: at `y = 1` the stress is `1` but no combined range contains
the strain. -/
theorem C16_unbounded_violated :
    let c : Bilinear := ⟨-30, -0.002, -0.0035⟩
    let p : Parallel := ⟨[(Elastic.mk 1 none).full, c.full], [1, 1]⟩
    ∃ out rs, (p.marin 0 1).1 = .ok out ∧ out.ranges = some rs ∧
      (∀ r ∈ rs, r.2 < 1) ∧ p.stress 1 = 1 := by
  intro c p
  have hb : breakpoints [⟨none, [[0, 1]]⟩, (c.marin 0 1).1] = [-0.0035, -0.002, 0] := by
    have h1 : (breakpoints [⟨none, [[0, 1]]⟩, (c.marin 0 1).1]).Pairwise (· ≤ ·) :=
      (breakpoints_sorted _).imp le_of_lt
    have h2 : ([-0.0035, -0.002, 0] : List ℝ).Pairwise (· ≤ ·) := by norm_num
    refine List.Perm.eq_of_pairwise (fun a b _ _ h h' => le_antisymm h h') h1 h2 ?_
    refine (List.perm_ext_iff_of_nodup ((breakpoints_sorted _).imp (fun h => h.ne)) (by norm_num)).2 ?_
    intro x
    rw [mem_breakpoints]
    simp only [c, Bilinear.marin, one_ne_zero, if_false, List.mem_cons, List.not_mem_nil, or_false]
    constructor
    · rintro ⟨o, rfl | rfl, rs, hrs, r, hr, hx⟩
      · simp at hrs
      · simp only [Option.some.injEq] at hrs
        subst hrs
        simp only [List.mem_cons, List.not_mem_nil, or_false] at hr
        rcases hr with rfl | rfl <;> rcases hx with rfl | rfl <;> simp
    · intro hx
      refine ⟨_, Or.inr rfl, _, rfl, ?_⟩
      rcases hx with rfl | rfl | rfl
      · exact ⟨(-0.0035, -0.002), by simp, Or.inl rfl⟩
      · exact ⟨(-0.002, 0), by simp, Or.inl rfl⟩
      · exact ⟨(-0.002, 0), by simp, Or.inr rfl⟩
  have hcm : (c.marin 0 1).1.ranges = some [((-0.002 : ℝ), (0 : ℝ)), (-0.0035, -0.002)] := by
    simp [Bilinear.marin, c]
  have hcol : collect (p.laws.map FullLaw.marin) 0 1 = ([⟨none, [[0, 1]]⟩, (c.marin 0 1).1], 0) := by
    simp [collect, p, Elastic.full, Bilinear.full, Elastic.marin, Bilinear.marin, c]
  have hne : (c.marin 0 1).1.coeffs ≠ [] := by simp [Bilinear.marin]
  obtain ⟨x, xs, hx⟩ := List.exists_cons_of_ne_nil hne
  have hl2 : lawMap (c.marin 0 1).1 [((-0.0035 : ℝ), (-0.002 : ℝ)), (-0.002, 0)] =
      .ok (mapCoeffs (sortedPieces (c.marin 0 1).1) [((-0.0035 : ℝ), (-0.002 : ℝ)), (-0.002, 0)]) := by
    have hnz : sortedPieces (c.marin 0 1).1 ≠ [] := by
      intro h0
      have := (sortedPieces_perm (c.marin 0 1).1).length_eq
      rw [h0, hcm, hx] at this
      simp at this
    have e : sortedPieces (c.marin 0 1).1 =
        ([((-0.002 : ℝ), (0 : ℝ)), (-0.0035, -0.002)].zip (c.marin 0 1).1.coeffs).mergeSort
          (fun a b => decide (a.1.1 ≤ b.1.1)) := by
      simp [sortedPieces, hcm]
    simp only [lawMap, hcm]
    rw [← e, if_neg hnz]
  have hok : ∃ cs, (p.marin 0 1).1 = .ok ⟨some [(-0.0035, -0.002), (-0.002, 0)], cs⟩ := by
    have hmm : [⟨none, [[0, 1]]⟩, (c.marin 0 1).1].mapM
        (fun o => lawMap o [((-0.0035 : ℝ), (-0.002 : ℝ)), (-0.002, 0)]) =
        .ok [[[0, 1], [0, 1]],
          mapCoeffs (sortedPieces (c.marin 0 1).1) [((-0.0035 : ℝ), (-0.002 : ℝ)), (-0.002, 0)]] := by
      rw [List.mapM_cons, List.mapM_cons, hl2]
      rfl
    simp only [Parallel.marin, hcol, splitMarin, hb, consecutive]
    rw [hmm]
    simp [mapCoeffs_length]
  obtain ⟨cs, hok⟩ := hok
  refine ⟨_, [(-0.0035, -0.002), (-0.002, 0)], hok, rfl, by norm_num, ?_⟩
  · rw [(C16_sum p 1).1]
    have : c.stress 1 = 0 := by
      have hs : snap (c.ult false) 1 = 1 := by
        apply snap_of_clear
        · unfold Clear; norm_num [Bilinear.ult, c, abs_of_pos, abs_of_neg]
        · unfold Clear; norm_num [Bilinear.ult, c, abs_of_pos, abs_of_neg]
      simp only [Bilinear.stress, hs]
      norm_num [Bilinear.core, c]
    simp [weightedSum, p, Elastic.full, Bilinear.full, Elastic.law, Bilinear.law, Elastic.stress, this]

theorem breakpoints_none (outs : List MarinOut) (h : ∀ o ∈ outs, o.ranges = none) : breakpoints outs = [] := by
  rw [List.eq_nil_iff_forall_not_mem]
  intro x hx
  obtain ⟨o, ho, rs, hrs, -⟩ := (mem_breakpoints outs x).1 hx
  rw [h o ho] at hrs; cases hrs

/-- Components without strain ranges (uniform strain, or elastic laws): no ranges, and one
polynomial, the weighted sum. -/
theorem splitMarin_uniform {α : Type*} (weights : List ℝ) (L : List α) (F : α → ℝ)
    (O : α → MarinOut) (y : ℝ)
    (h : ∀ l ∈ L, (O l).ranges = none ∧ ∃ c, (O l).coeffs = [c] ∧ evalPoly c y = F l) :
    ∃ c, splitMarin weights (L.map O) = .ok ⟨none, [c]⟩ ∧
      evalPoly c y = ((weights.zip L).map fun wl => wl.1 * F wl.2).sum := by
  have hb : breakpoints (L.map O) = [] := breakpoints_none _ (by
    intro o ho; obtain ⟨l, hl, rfl⟩ := List.mem_map.1 ho; exact (h l hl).1)
  have hm : ∀ o ∈ L.map O, lawMap o [] = .ok [o.coeffs.headD []] := by
    intro o ho
    obtain ⟨l, hl, rfl⟩ := List.mem_map.1 ho
    obtain ⟨h1, c, h2, -⟩ := h l hl
    simp [lawMap, h1, h2]
  refine ⟨combine (weights.zip (L.map fun l => (O l).coeffs.headD [])), ?_, ?_⟩
  · simp only [splitMarin, hb, consecutive]
    rw [mapM_ok _ (fun o => [o.coeffs.headD []]) _ hm]
    simp [Function.comp_def]
  · rw [evalPoly_combine, zip_map_right', List.map_map]
    refine sum_congr_zip L (fun l => evalPoly ((O l).coeffs.headD []) y) F ?_
    intro l hl
    obtain ⟨h1, c, h2, h3⟩ := h l hl
    simp [h2, h3]

/-- **C16** for a uniform strain at which no component assigns `strain[0]`. -/
theorem C16_marin_uniform_partial (p : Parallel) (e0 y : ℝ)
    (hm : ∀ l ∈ p.laws, (l.marin e0 0).2 = e0)
    (h : ∀ l ∈ p.laws, (l.marin e0 0).1.ranges = none ∧
      ∃ c, (l.marin e0 0).1.coeffs = [c] ∧ evalPoly c y = l.law.stress e0) :
    ∃ c, p.marin e0 0 = (.ok ⟨none, [c]⟩, e0) ∧ evalPoly c y = p.stress e0 := by
  obtain ⟨c, h1, h2⟩ := splitMarin_uniform p.weights p.laws (fun l => l.law.stress e0)
    (fun l => (l.marin e0 0).1) y h
  have hc : collect (p.laws.map FullLaw.marin) e0 0 = (p.laws.map fun l => (l.marin e0 0).1, e0) := by
    rw [collect_pure _ _ _ (by
      intro m hm'; obtain ⟨l, hl, rfl⟩ := List.mem_map.1 hm'; exact hm l hl), List.map_map]
    rfl
  refine ⟨c, ?_, ?_⟩
  · simp only [Parallel.marin, hc, h1]
  · rw [h2, (C16_sum p e0).1, weightedSum, zip_map_right', List.map_map]
    rfl

/-- **C16 is false for a uniform strain inside a component's tolerance band**: that component
writes the snapped strain back into the shared `strain` list and the next component uses it. -/
theorem C16_uniform_violated :
    let s : ElasticPlastic := ⟨1, 1, 0, some 2⟩
    let p : Parallel := ⟨[s.full, (Elastic.mk 1 none).full], [1, 1]⟩
    ∃ c, (p.marin (2 + 1e-6) 0).1 = .ok ⟨none, [c]⟩ ∧ evalPoly c 0 = 3 ∧ p.stress (2 + 1e-6) = 3 + 1e-6 := by
  intro s p
  have hu : s.ult false = (-2, 2) := by norm_num [ElasticPlastic.ult, s]
  have hy : s.ult true = (-1, 1) := by norm_num [ElasticPlastic.ult, s, ElasticPlastic.eps_sy]
  have hs : snap (s.ult false) (2 + 1e-6) = 2 := by
    rw [hu]; unfold snap isclose; norm_num [abs_of_pos]
  have hsm : s.marin (2 + 1e-6) 0 = (⟨none, [[1, 0]]⟩, 2) := by
    simp only [ElasticPlastic.marin, hs, hy]
    rw [hu]
    norm_num [s]
  have hcol : collect (p.laws.map FullLaw.marin) (2 + 1e-6) 0 =
      ([⟨none, [[1, 0]]⟩, ⟨none, [[2, 0]]⟩], 2) := by
    simp [collect, p, ElasticPlastic.full, Elastic.full, hsm, Elastic.marin]
  obtain ⟨c, h1, h2⟩ := splitMarin_uniform [1, 1] [([1, 0] : List ℝ), [2, 0]] (fun c => evalPoly c 0)
    (fun c => ⟨none, [c]⟩) 0 (fun l _ => ⟨rfl, l, rfl, rfl⟩)
  refine ⟨c, ?_, ?_, ?_⟩
  · simp only [Parallel.marin, hcol]; exact h1
  · rw [h2]; norm_num [evalPoly]
  · rw [(C16_sum p _).1]
    have : s.stress (2 + 1e-6) = 1 := by
      simp only [ElasticPlastic.stress, hs]
      norm_num [ElasticPlastic.core, s, ElasticPlastic.eps_sy, ElasticPlastic.beyond, ElasticPlastic.deltaSig]
    simp [weightedSum, p, ElasticPlastic.full, Elastic.full, ElasticPlastic.law, Elastic.law, this, Elastic.stress]
    norm_num

/-- **C16**, arrays: if every component leaves the array unchanged (no strain in a tolerance
band) and agrees with its scalar version there, so does the parallel law. -/
theorem C16_array_partial (p : Parallel) (ι : Type) (eps : ι → ℝ)
    (h : ∀ l ∈ p.laws, l.stressCall ι eps = (fun i => l.law.stress (eps i), eps)) :
    p.stressCall ι eps = (fun i => p.stress (eps i), eps) := by
  have key : ∀ (L : List (ℝ × FullLaw)) (a : ι → ℝ), (∀ wl ∈ L, wl.2.stressCall ι eps = (fun i => wl.2.law.stress (eps i), eps)) →
      L.foldl (fun (acc : (ι → ℝ) × (ι → ℝ)) wl =>
        (fun i => acc.1 i + wl.1 * (wl.2.stressCall ι acc.2).1 i, (wl.2.stressCall ι acc.2).2)) (a, eps) =
      (fun i => L.foldl (fun s wl => s + wl.1 * wl.2.law.stress (eps i)) (a i), eps) := by
    intro L
    induction L with
    | nil => intro a _; rfl
    | cons wl L ih =>
      intro a hL
      simp only [List.foldl_cons]
      rw [hL wl (by simp)]
      exact ih _ (fun w hw => hL w (by simp [hw]))
  exact key _ _ (fun wl hwl => h wl.2 (List.of_mem_zip hwl).2)

/-- **C16 is false for arrays**: a component that snaps strains in place changes what the next
component sees.  The same laws as in `C16_uniform_violated` on a one-element array. -/
theorem C16_array_violated :
    let s : ElasticPlastic := ⟨1, 1, 0, some 2⟩
    let p : Parallel := ⟨[s.full, (Elastic.mk 1 none).full], [1, 1]⟩
    (p.stressCall Unit (fun _ => 2 + 1e-6)).1 () = 3 ∧ p.stress (2 + 1e-6) = 3 + 1e-6 := by
  intro s p
  refine ⟨?_, C16_uniform_violated.choose_spec.2.2⟩
  have hu : s.ult false = (-2, 2) := by norm_num [ElasticPlastic.ult, s]
  have hsnap : snapArr (s.ult false) (fun _ : Unit => (2 + 1e-6 : ℝ)) = fun _ => 2 := by
    funext i
    rw [hu]
    simp only [snapArr, maskSet_apply, isclose]
    norm_num [abs_of_pos]
  have hst : s.getStressCall (fun _ : Unit => (2 + 1e-6 : ℝ)) = (fun _ => 1, fun _ => 2) := by
    simp only [ElasticPlastic.getStressCall, ElasticPlastic.stressArr, hsnap]
    refine Prod.ext ?_ rfl
    funext i
    simp only [s, maskSet]
    norm_num [ElasticPlastic.deltaSig]
  simp only [Parallel.stressCall, p, ElasticPlastic.full, Elastic.full, List.zip_cons_cons,
    List.zip_nil_right, List.foldl_cons, List.foldl_nil, hst, Elastic.stressArr]
  norm_num

/-! ## C14: the strain ranges of a wrapped piecewise law -/

/-- **C14 is false for the strain ranges**: `InitialStrain.__marin__` returns the wrapped law's
ranges unshifted, although the section integrator compares them with the section strain
(`_marin_integrator.py:149-150`).  An elastic-plastic law (yield at strain 1) with initial strain
1: at section strain `1/2` the total strain is `3/2`, the stress is `1`, but the polynomial whose
returned range contains `1/2` gives `3/2`. -/
theorem C14_ranges_violated :
    let s : ElasticPlastic := ⟨1, 1, 0, some 4⟩
    let l : InitialStrain := ⟨s.law, 1, true⟩
    ∃ rs, (l.marin s.marin 0 1).1.ranges = some rs ∧
      (∃ rc ∈ rs.zip (l.marin s.marin 0 1).1.coeffs, rc.1.1 < (1/2 : ℝ) ∧ (1/2 : ℝ) < rc.1.2 ∧
        evalPoly rc.2 (1/2) = 3/2) ∧ l.stress (1/2) = 1 := by
  intro s l
  have hu : s.ult false = (-4, 4) := by norm_num [ElasticPlastic.ult, s]
  have hy : s.ult true = (-1, 1) := by norm_num [ElasticPlastic.ult, s, ElasticPlastic.eps_sy]
  refine ⟨[(-4, -1), (-1, 1), (1, 4)], ?_, ?_, ?_⟩
  · simp [InitialStrain.marin, ElasticPlastic.marin, hu, hy]
  · refine ⟨((-1, 1), [1, 1]), ?_, by norm_num, by norm_num, by norm_num [evalPoly]⟩
    simp [InitialStrain.marin, ElasticPlastic.marin, s, l]
  · have hs : snap (s.ult false) (1/2 + 1) = 1/2 + 1 := by
      rw [hu]
      apply snap_of_clear <;> unfold Clear <;> norm_num [abs_of_pos, abs_of_neg]
    simp only [InitialStrain.stress, l, if_true, ElasticPlastic.law]
    norm_num [ElasticPlastic.stress, hs]
    norm_num at hs
    rw [hs]
    norm_num [ElasticPlastic.core, s, ElasticPlastic.eps_sy, ElasticPlastic.beyond, ElasticPlastic.deltaSig]

/-- Applied to the wrapped (total) strain, the returned pieces are right: this is what a correct
shift of the ranges by `-initial_strain` would give.  (The converse of `C14_ranges_violated`:
only the ranges are wrong, not the polynomials.) -/
theorem C14_shifted_ranges (l : InitialStrain) (hc : l.compat = true)
    (w : ℝ → ℝ → MarinOut × ℝ) (ok : ℝ → Prop) (e0 e1 : ℝ) (rs : List (ℝ × ℝ))
    (h : PiecesMatch l.wrapped.stress (e0 + l.eps0) e1 ok rs (w (e0 + l.eps0) e1).1.coeffs) :
    PiecesMatch l.stress e0 e1 (fun e => ok (e + l.eps0))
      (rs.map fun r => (r.1 - l.eps0, r.2 - l.eps0)) (l.marin w e0 e1).1.coeffs := by
  have hs : ∀ y, l.stress (e0 + e1 * y) = l.wrapped.stress (e0 + l.eps0 + e1 * y) := by
    intro y
    simp only [InitialStrain.stress, hc]; simp; congr 1; ring
  have he : ∀ y, e0 + e1 * y + l.eps0 = e0 + l.eps0 + e1 * y := by intro y; ring
  refine ⟨by simpa [InitialStrain.marin] using h.length, ⟨?_, ?_⟩, ?_, ?_⟩
  · intro r hr
    obtain ⟨r', hr', rfl⟩ := List.mem_map.1 hr
    have := h.tiling.1 r' hr'
    simp only; linarith
  · rw [List.pairwise_map]
    refine h.tiling.2.imp ?_
    intro a b hab
    simp only
    rcases hab with h | h
    · left; linarith
    · right; linarith
  · intro rc hrc y hok h1 h2
    simp only [InitialStrain.marin] at hrc
    rw [List.zip_map_left] at hrc
    obtain ⟨rc', hrc', rfl⟩ := List.mem_map.1 hrc
    simp only [Prod.map] at h1 h2 ⊢
    rw [hs y]
    exact h.inside rc' hrc' y (by rw [← he]; exact hok) (by linarith) (by linarith)
  · intro y hok hout
    rw [hs y]
    refine h.outside y (by rw [← he]; exact hok) fun r hr => ?_
    rcases hout _ (List.mem_map_of_mem hr) with h | h
    · left; simp only at h; linarith
    · right; simp only at h; linarith

end SC
