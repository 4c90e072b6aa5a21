import Verif.Model.Loop

set_option autoImplicit false

namespace SC

variable {σ : Type} {cond : σ → Prop} {body : σ → Except PyErr σ}

theorem whileFuel_succ {f : ℕ} {s : σ} {r : Except PyErr σ × ℕ}
    (h : whileFuel cond body f s = some r) : whileFuel cond body (f + 1) s = some r := by
  induction f generalizing s r with
  | zero =>
    unfold whileFuel at h ⊢
    split_ifs at h ⊢ with hc
    exact h
  | succ f ih =>
    rw [whileFuel] at h ⊢
    split_ifs at h ⊢ with hc
    · cases hb : body s with
      | error e => simpa [hb] using h
      | ok s' =>
        simp only [hb, Option.map_eq_some_iff] at h ⊢
        obtain ⟨a, ha, rfl⟩ := h
        exact ⟨a, ih ha, rfl⟩
    · exact h

theorem whileFuel_mono {f g : ℕ} (hfg : f ≤ g) {s : σ} {r : Except PyErr σ × ℕ}
    (h : whileFuel cond body f s = some r) : whileFuel cond body g s = some r := by
  induction hfg with
  | refl => exact h
  | step _ ih => exact whileFuel_succ ih

/-- The outcome of the loop is the outcome with any sufficient fuel. -/
theorem pyWhile_of_fuel {f : ℕ} {s : σ} {r : Except PyErr σ × ℕ}
    (h : whileFuel cond body f s = some r) : pyWhile cond body s = some r := by
  classical
  have hex : ∃ f, (whileFuel cond body f s).isSome := ⟨f, by simp [h]⟩
  rw [pyWhile, dif_pos hex]
  have hle : Nat.find hex ≤ f := Nat.find_min' hex (by simp [h])
  obtain ⟨r', hr'⟩ := Option.isSome_iff_exists.1 (Nat.find_spec hex)
  rw [hr']
  exact (whileFuel_mono hle hr').symm.trans h

theorem fuel_of_pyWhile {s : σ} {r : Except PyErr σ × ℕ}
    (h : pyWhile cond body s = some r) : ∃ f, whileFuel cond body f s = some r := by
  classical
  unfold pyWhile at h
  split_ifs at h with hex
  exact ⟨_, h⟩

theorem pyWhile_stop {s : σ} (h : ¬ cond s) : pyWhile cond body s = some (.ok s, 0) :=
  pyWhile_of_fuel (f := 0) (by simp [whileFuel, h])

theorem pyWhile_error {s : σ} (h : cond s) {e : PyErr} (hb : body s = .error e) :
    pyWhile cond body s = some (.error e, 1) :=
  pyWhile_of_fuel (f := 1) (by simp [whileFuel, h, hb])

theorem pyWhile_step {s s' : σ} (h : cond s) (hb : body s = .ok s') :
    pyWhile cond body s = (pyWhile cond body s').map fun r => (r.1, r.2 + 1) := by
  classical
  cases hr : pyWhile cond body s' with
  | some r =>
    obtain ⟨f, hf⟩ := fuel_of_pyWhile hr
    exact pyWhile_of_fuel (f := f + 1) (by simp [whileFuel, h, hb, hf])
  | none =>
    by_contra hne
    obtain ⟨r, hr2⟩ := Option.ne_none_iff_exists'.1 hne
    obtain ⟨f, hf⟩ := fuel_of_pyWhile hr2
    cases f with
    | zero => simp [whileFuel, h] at hf
    | succ f =>
      simp only [whileFuel, if_pos h, hb, Option.map_eq_some_iff] at hf
      obtain ⟨a, ha, -⟩ := hf
      rw [pyWhile_of_fuel ha] at hr
      cases hr

/-- Loop rule: what holds initially and is preserved by the body holds at the end, together with
the negated condition; errors are errors of the body in a reachable state. -/
theorem pyWhile_inv (I : σ → Prop) (hstep : ∀ s s', I s → cond s → body s = .ok s' → I s')
    {s : σ} {r : Except PyErr σ × ℕ} (hs : I s) (h : pyWhile cond body s = some r) :
    (∃ s', r.1 = .ok s' ∧ I s' ∧ ¬ cond s') ∨
    (∃ s' e, r.1 = .error e ∧ I s' ∧ cond s' ∧ body s' = .error e) := by
  obtain ⟨f, hf⟩ := fuel_of_pyWhile h
  clear h
  induction f generalizing s r with
  | zero =>
    unfold whileFuel at hf
    split_ifs at hf with hc
    simp only [Option.some.injEq] at hf
    subst hf
    exact Or.inl ⟨s, rfl, hs, hc⟩
  | succ f ih =>
    rw [whileFuel] at hf
    split_ifs at hf with hc
    · cases hb : body s with
      | error e =>
        simp only [hb, Option.some.injEq] at hf
        subst hf
        exact Or.inr ⟨s, e, rfl, hs, hc, hb⟩
      | ok s' =>
        simp only [hb, Option.map_eq_some_iff] at hf
        obtain ⟨a, ha, rfl⟩ := hf
        exact ih (r := a) (hstep s s' hs hc hb) ha
    · simp only [Option.some.injEq] at hf
      subst hf
      exact Or.inl ⟨s, rfl, hs, hc⟩

/-- Termination rule: a measure that decreases bounds the number of executions of the body. -/
theorem pyWhile_terminates (I : σ → Prop) (M : σ → ℕ)
    (hstep : ∀ s s', I s → cond s → body s = .ok s' → I s' ∧ M s' < M s)
    (hpos : ∀ s, I s → cond s → 0 < M s)
    {s : σ} (hs : I s) : ∃ r k, pyWhile cond body s = some (r, k) ∧ k ≤ M s := by
  suffices H : ∀ m (s : σ), M s ≤ m → I s → ∃ r k, pyWhile cond body s = some (r, k) ∧ k ≤ M s from
    H _ s le_rfl hs
  intro m
  induction m with
  | zero =>
    intro s hm hI
    by_cases hc : cond s
    · exact absurd (hpos s hI hc) (by omega)
    · exact ⟨_, _, pyWhile_stop hc, by omega⟩
  | succ m ih =>
    intro s hm hI
    by_cases hc : cond s
    · cases hb : body s with
      | error e => exact ⟨_, _, pyWhile_error hc hb, hpos s hI hc⟩
      | ok s' =>
        obtain ⟨hI', hlt⟩ := hstep s s' hI hc hb
        obtain ⟨r, k, hr, hk⟩ := ih s' (by omega) hI'
        exact ⟨r, k + 1, by rw [pyWhile_step hc hb, hr]; rfl, by omega⟩
    · exact ⟨_, _, pyWhile_stop hc, by omega⟩

end SC
