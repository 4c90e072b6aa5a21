import Verif.Model.Factories
import Mathlib.Data.List.Lookmap

/-! # C29, C30, C31, C54: global design code, factories -/

set_option autoImplicit false

namespace SC

theorem charLower_idem (c : Char) : c.toLower.toLower = c.toLower := by
  by_cases h : 'A'.val ≤ c.val ∧ c.val ≤ 'Z'.val
  · have h1 : c.toLower.val = c.val + ('a'.val - 'A'.val) := by
      unfold Char.toLower
      rw [dif_pos h]
    have h2 : ¬ ('A'.val ≤ c.toLower.val ∧ c.toLower.val ≤ 'Z'.val) := by
      rw [h1]
      rintro ⟨-, h3⟩
      obtain ⟨ha, hb⟩ := h
      rw [UInt32.le_iff_toNat_le] at ha hb h3
      rw [UInt32.toNat_add] at h3
      have e1 : 'A'.val.toNat = 65 := rfl
      have e2 : 'Z'.val.toNat = 90 := rfl
      have e3 : ('a'.val - 'A'.val).toNat = 32 := rfl
      rw [e2, e3] at h3
      rw [e1] at ha
      rw [e2] at hb
      omega
    generalize c.toLower = d at h2
    unfold Char.toLower
    rw [dif_neg h2]
  · have h1 : c.toLower = c := by
      unfold Char.toLower
      rw [dif_neg h]
    rw [h1, h1]

/-- ASCII lower-casing meets the assumptions made about `str.lower()`. -/
theorem asciiLower : PyLower String.toLower where
  idem s := by
    apply String.toList_inj.1
    simp [String.toLower, charLower_idem]
  fixed s hs := by
    apply String.toList_inj.1
    simp only [List.mem_cons, List.not_mem_nil, or_false] at hs
    rcases hs with rfl | rfl | rfl | rfl | rfl | rfl | rfl | rfl | rfl | rfl | rfl | rfl | rfl | rfl <;>
      (simp only [String.toLower, String.toList_map]; decide)

/-! ### C29 -/

variable {α : Type} (lower : String → String) (mk : MatClass → Except PyErr α)

/-- The code named by an argument, if it is valid: `some none` is the reset by `None`. -/
def CodeArg.names (lower : String → String) : CodeArg → Option (Option CodeModule)
  | .none => some Option.none
  | .str s => (designCodes.lookup (lower s)).map some
  | .mod m => if m.isCode then some (some m) else Option.none
  | .other => Option.none

/-- **C29 (validation).** `set_design_code` either accepts its argument and the named code becomes the
global one, or raises `ValueError` and changes nothing; nothing else is touched. -/
theorem C29_set (a : CodeArg) (g : Globals) :
    (∀ c, a.names lower = some c → setDesignCode lower a g = (⟨c, g.annex⟩, .ok ())) ∧
    (a.names lower = none → setDesignCode lower a g = (g, .error .valueError)) := by
  cases a with
  | none => simp [CodeArg.names, setDesignCode]
  | str s =>
    cases h : designCodes.lookup (lower s) <;> simp [CodeArg.names, setDesignCode, h]
  | mod m => cases h : m.isCode <;> simp [CodeArg.names, setDesignCode, h]
  | other => simp [CodeArg.names, setDesignCode]

/-- The names accepted are exactly the four abbreviations in any letter case. -/
theorem C29_names (s : String) :
    (∃ m, (CodeArg.str s).names lower = some (some m)) ↔
      lower s ∈ ["mc2010", "mc2020", "ec2_2004", "ec2_2023"] := by
  simp only [CodeArg.names, designCodes, Option.map_eq_some_iff, Option.some.injEq, exists_eq_right]
  simp only [List.lookup, List.mem_cons, List.not_mem_nil, or_false]
  by_cases h1 : lower s = "mc2010"
  · simp [h1]
  by_cases h2 : lower s = "mc2020"
  · simp [h2]
  by_cases h3 : lower s = "ec2_2004"
  · simp [h3]
  by_cases h4 : lower s = "ec2_2023"
  · simp [h4]
  · have b1 : (lower s == "mc2010") = false := by simpa using h1
    have b2 : (lower s == "mc2020") = false := by simpa using h2
    have b3 : (lower s == "ec2_2004") = false := by simpa using h3
    have b4 : (lower s == "ec2_2023") = false := by simpa using h4
    simp [h1, h2, h3, h4, b1, b2, b3, b4]

/-- Operations that do not mention a code. -/
def CodeOp.noCode : CodeOp → Prop
  | .setCode _ => False
  | .concrete .none => True
  | .reinforcement .none => True
  | .concrete _ => False
  | .reinforcement _ => False
  | _ => True

/-- **C29 (modules).** The module of a code, passed instead of its name, selects the same code; it is the module of that name, with the
title of the document. -/
theorem C29_module (s : String) (m : CodeModule) (h : (CodeArg.str s).names lower = some (some m)) (g : Globals) :
    setDesignCode lower (.mod m) g = setDesignCode lower (.str s) g ∧ m.ident = lower s ∧
      (lower s, m.title) ∈ [("mc2010", "fib Model Code 2010"), ("mc2020", "fib Model Code 2020"),
        ("ec2_2004", "EUROCODE 2 1992-1-1:2004"), ("ec2_2023", "EUROCODE 2 1992-1-1:2023")] := by
  have hs := (C29_names lower s).1 ⟨m, h⟩
  simp only [List.mem_cons, List.not_mem_nil, or_false] at hs
  simp only [CodeArg.names, Option.map_eq_some_iff, Option.some.injEq, exists_eq_right] at h
  rcases hs with hs | hs | hs | hs <;> rw [hs] at h ⊢ <;> simp [designCodes, List.lookup] at h <;> subst h <;>
    simp [setDesignCode, hs, designCodes, List.lookup, mc2010, mc2020, ec2_2004, ec2_2023]

/-- A name in capitals and its module. -/
example (g : Globals) : setDesignCode String.toLower (.mod ec2_2023) g = setDesignCode String.toLower (.str "EC2_2023") g :=
  (C29_module String.toLower "EC2_2023" ec2_2023 (by
    have : String.toLower "EC2_2023" = "ec2_2023" := by
      apply String.toList_inj.1
      simp only [String.toLower, String.toList_map]; decide
    simp [CodeArg.names, this, designCodes, List.lookup]) g).1

theorem createMaterial_state (kind : String) (table : List (String × MatClass)) (a : CodeArg)
    (g : Globals) : (createMaterial lower kind table mk a g).1 = (useDesignCode lower a g).1 := by
  unfold createMaterial
  rcases useDesignCode lower a g with ⟨g', e | _ | m⟩
  · rfl
  · rfl
  · simp only
    split_ifs
    · cases table.lookup m.title with
      | none => rfl
      | some c => simp only; cases mk c <;> rfl
    · rfl

theorem run_noCode (op : CodeOp) (h : op.noCode) (g : Globals) :
    (op.run lower mk g).1.code = g.code := by
  cases op with
  | setCode a => exact h.elim
  | setAnnex s => rfl
  | getCodes => rfl
  | concrete a =>
    cases a with
    | none => simp only [CodeOp.run, createMaterial_state, useDesignCode]
    | str s => exact h.elim
    | mod m => exact h.elim
    | other => exact h.elim
  | reinforcement a =>
    cases a with
    | none => simp only [CodeOp.run, createMaterial_state, useDesignCode]
    | str s => exact h.elim
    | mod m => exact h.elim
    | other => exact h.elim

/-- **C29 (stability), partial.** After `set_design_code` with a valid argument, any history of
operations that name no code (creating materials with the global code, listing codes, setting the
annex), whatever exceptions they raise, keeps it.  Missing: operations naming a code for one
material only, which do change it (`C29_explicit_violated`). -/
theorem C29_stable_partial (a : CodeArg) (c : Option CodeModule) (h : a.names lower = some c)
    (g : Globals) (ops : List CodeOp) (hops : ∀ op ∈ ops, op.noCode) :
    (runOps lower mk ops (setDesignCode lower a g).1).code = c := by
  rw [(C29_set lower a g).1 c h]
  suffices ∀ g : Globals, (runOps lower mk ops g).code = g.code from this _
  induction ops with
  | nil => intro g; rfl
  | cons op rest ih =>
    intro g
    rw [runOps, ih (fun o ho => hops o (List.mem_cons_of_mem _ ho)),
      run_noCode lower mk op (hops op List.mem_cons_self)]

/-- The code argument of an operation that takes effect on the global state. -/
def CodeOp.codeArg : CodeOp → Option CodeArg
  | .setCode a => some a
  | .concrete .none | .reinforcement .none => none
  | .concrete a | .reinforcement a => some a
  | _ => none

theorem useDesignCode_state (a : CodeArg) (ha : a ≠ .none) (g : Globals) :
    (useDesignCode lower a g).1 = (setDesignCode lower a g).1 := by
  cases a with
  | none => exact absurd rfl ha
  | str s =>
    simp only [useDesignCode]
    rcases setDesignCode lower (.str s) g with ⟨g', e | u⟩ <;> rfl
  | mod s =>
    simp only [useDesignCode]
    rcases setDesignCode lower (.mod s) g with ⟨g', e | u⟩ <;> rfl
  | other =>
    simp only [useDesignCode]
    rcases setDesignCode lower .other g with ⟨g', e | u⟩ <;> rfl

/-- **C29 (what actually happens).** After any history the global code is the last valid code named
by any operation, including the `design_code` argument of the material factories. -/
theorem C29_last (ops : List CodeOp) (g : Globals) :
    (runOps lower mk ops g).code =
      ((ops.filterMap fun op => op.codeArg.bind (CodeArg.names lower)).getLast?).getD g.code := by
  induction ops generalizing g with
  | nil => rfl
  | cons op rest ih =>
    rw [runOps, ih]
    have step : ∀ c, op.codeArg.bind (CodeArg.names lower) = c →
        (op.run lower mk g).1.code = c.getD g.code := by
      have hset : ∀ a : CodeArg, (setDesignCode lower a g).1.code = (a.names lower).getD g.code := by
        intro a
        cases hn : a.names lower with
        | none => rw [(C29_set lower a g).2 hn]; rfl
        | some c => rw [(C29_set lower a g).1 c hn]; rfl
      rintro c rfl
      cases op with
      | setCode a =>
        have : (CodeOp.run lower mk (.setCode a) g).1 = (setDesignCode lower a g).1 := by
          simp only [CodeOp.run]
          rcases setDesignCode lower a g with ⟨g', e | u⟩ <;> rfl
        rw [this, hset]; rfl
      | setAnnex s => rfl
      | getCodes => rfl
      | concrete a =>
        by_cases ha : a = .none
        · subst ha
          exact run_noCode lower mk _ (by simp [CodeOp.noCode]) g
        · rw [CodeOp.run, createMaterial_state, useDesignCode_state lower a ha, hset]
          cases a <;> first | exact absurd rfl ha | rfl
      | reinforcement a =>
        by_cases ha : a = .none
        · subst ha
          exact run_noCode lower mk _ (by simp [CodeOp.noCode]) g
        · rw [CodeOp.run, createMaterial_state, useDesignCode_state lower a ha, hset]
          cases a <;> first | exact absurd rfl ha | rfl
    cases hc : op.codeArg.bind (CodeArg.names lower) with
    | none =>
      rw [List.filterMap_cons_none (f := fun op : CodeOp => op.codeArg.bind (CodeArg.names lower)) hc, step _ hc]; rfl
    | some c =>
      rw [List.filterMap_cons_some (f := fun op : CodeOp => op.codeArg.bind (CodeArg.names lower)) hc, step _ hc,
        List.getLast?_cons]
      cases (rest.filterMap fun op => op.codeArg.bind (CodeArg.names lower)).getLast? <;> rfl

/-- **C29, violated.** Creating one material with an explicit `design_code` (documented as used "for
the instance of the material") replaces the code the user had set globally, for every valid code,
whether or not the creation succeeds. -/
theorem C29_explicit_violated (g : Globals) (s : String) (m : CodeModule)
    (h : (CodeArg.str s).names lower = some (some m)) :
    ((CodeOp.concrete (.str s)).run lower mk g).1.code = some m := by
  have := C29_last lower mk [.concrete (.str s)] g
  simp only [runOps, List.filterMap_cons, CodeOp.codeArg, Option.bind_some, h, List.filterMap_nil,
    List.getLast?_singleton, Option.getD_some] at this
  exact this

/-- A history in which a user sets EC2 2004 and creates one MC2010 concrete: later materials are
created for MC2010. -/
example (hl : PyLower lower) (g : Globals) :
    (runOps lower mk [.setCode (.str "ec2_2004"), .concrete (.str "mc2010")] g).code = some mc2010 := by
  have h1 : lower "mc2010" = "mc2010" := hl.fixed _ (by simp)
  have h2 : lower "ec2_2004" = "ec2_2004" := hl.fixed _ (by simp)
  rw [C29_last]
  simp [CodeOp.codeArg, CodeArg.names, h1, h2, designCodes, List.lookup]

/-! ### C54 -/

/-- The class documented for a code. -/
def concreteFor : CodeModule → Option MatClass := fun m =>
  if m = mc2010 then some .concreteMC2010
  else if m = ec2_2004 then some .concreteEC2_2004
  else if m = ec2_2023 then some .concreteEC2_2023
  else none

/-- **C54, partial.** With one of the codes MC2010, EC2 2004, EC2 2023 in effect (global or explicit),
`create_concrete` calls exactly that code's class and returns its object or its exception; without a
code in effect, or with a module that does not cover concrete, it raises `ValueError`. -/
theorem C54_concrete_partial (a : CodeArg) (g g' : Globals) (r : Except PyErr (Option CodeModule))
    (h : useDesignCode lower a g = (g', r)) :
    (∀ m c, r = .ok (some m) → concreteFor m = some c →
      createMaterial lower "concrete" concretes mk a g = (g', (mk c).map some)) ∧
    (r = .ok none → createMaterial lower "concrete" concretes mk a g = (g', .error .valueError)) ∧
    (∀ m, r = .ok (some m) → "concrete" ∉ m.materials →
      createMaterial lower "concrete" concretes mk a g = (g', .error .valueError)) ∧
    (∀ e, r = .error e → createMaterial lower "concrete" concretes mk a g = (g', .error e)) := by
  unfold createMaterial
  rw [h]
  refine ⟨?_, ?_, ?_, ?_⟩
  · rintro m c rfl hc
    unfold concreteFor at hc
    split_ifs at hc with h1 h2 h3
    · cases hc; subst h1
      simp [mc2010, concretes, List.lookup]
      cases mk .concreteMC2010 <;> rfl
    · cases hc; subst h2
      simp [ec2_2004, concretes, List.lookup]
      cases mk .concreteEC2_2004 <;> rfl
    · cases hc; subst h3
      simp [ec2_2023, concretes, List.lookup]
      cases mk .concreteEC2_2023 <;> rfl
  · rintro rfl; rfl
  · rintro m rfl hm; simp [hm]
  · rintro e rfl; rfl

/-- Same for `create_reinforcement`. -/
def reinforcementFor : CodeModule → Option MatClass := fun m =>
  if m = mc2010 then some .reinforcementMC2010
  else if m = ec2_2004 then some .reinforcementEC2_2004
  else if m = ec2_2023 then some .reinforcementEC2_2023
  else none

/-- **C54, partial**, for `create_reinforcement`. -/
theorem C54_reinforcement_partial (a : CodeArg) (g g' : Globals)
    (r : Except PyErr (Option CodeModule)) (h : useDesignCode lower a g = (g', r)) :
    (∀ m c, r = .ok (some m) → reinforcementFor m = some c →
      createMaterial lower "reinforcement" reinforcements mk a g = (g', (mk c).map some)) ∧
    (r = .ok none → createMaterial lower "reinforcement" reinforcements mk a g =
      (g', .error .valueError)) ∧
    (∀ m, r = .ok (some m) → "reinforcement" ∉ m.materials →
      createMaterial lower "reinforcement" reinforcements mk a g = (g', .error .valueError)) ∧
    (∀ e, r = .error e →
      createMaterial lower "reinforcement" reinforcements mk a g = (g', .error e)) := by
  unfold createMaterial
  rw [h]
  refine ⟨?_, ?_, ?_, ?_⟩
  · rintro m c rfl hc
    unfold reinforcementFor at hc
    split_ifs at hc with h1 h2 h3
    · cases hc; subst h1
      simp [mc2010, reinforcements, List.lookup]
      cases mk .reinforcementMC2010 <;> rfl
    · cases hc; subst h2
      simp [ec2_2004, reinforcements, List.lookup]
      cases mk .reinforcementEC2_2004 <;> rfl
    · cases hc; subst h3
      simp [ec2_2023, reinforcements, List.lookup]
      cases mk .reinforcementEC2_2023 <;> rfl
  · rintro rfl; rfl
  · rintro m rfl hm; simp [hm]
  · rintro e rfl; rfl

/-- **C54, violated.** With the listed design code `mc2020` both factories return `None` instead of
a material or the documented `ValueError`, whatever the arguments. -/
theorem C54_mc2020_violated (hl : PyLower lower) (g : Globals) :
    (createMaterial lower "concrete" concretes mk (.str "mc2020") g).2 = .ok none ∧
    (createMaterial lower "reinforcement" reinforcements mk (.str "mc2020") g).2 = .ok none := by
  have h1 : lower "mc2020" = "mc2020" := hl.fixed _ (by simp)
  simp [createMaterial, useDesignCode, setDesignCode, h1, designCodes, List.lookup, mc2020, concretes,
    reinforcements]

example : concreteFor ec2_2004 = some .concreteEC2_2004 := by decide

/-! ### C30 -/

/-- The registered law names. -/
def lawNames : List String := ["elastic", "elasticplastic", "elasticperfectlyplastic",
  "bilinearcompression", "parabolarectangle", "popovics", "sargin", "initialstrain"]

theorem lookup_isSome_iff (l : List (String × LawClass)) (s : String) :
    (∃ c, l.lookup s = some c) ↔ s ∈ l.map Prod.fst := by
  induction l with
  | nil => simp
  | cons p l ih =>
    obtain ⟨k, v⟩ := p
    by_cases h : s = k
    · subst h; simp [List.lookup]
    · have hb : (s == k) = false := by simpa using h
      simp only [List.lookup, hb, List.map_cons, List.mem_cons, h, false_or, ih]

variable {κ β : Type} (mkLaw : LawClass → κ → Except PyErr β)

/-- **C30 (unknown names).** A name that is not registered in any letter case raises `ValueError`, for
every material. -/
theorem C30_unknown (name : String) (material : String → Option (Except PyErr κ))
    (h : lower name ∉ lawNames) :
    createLaw lower mkLaw name material = .error .valueError := by
  unfold createLaw
  cases hl : constitutiveLaws.lookup (lower name) with
  | none => rfl
  | some c =>
    have := (lookup_isSome_iff _ _).1 ⟨c, hl⟩
    exact absurd (by simpa [constitutiveLaws, lawNames] using this) h

/-- **C30 (registered lower-case names), partial.** For a registered name in lower case: if the
material has the special method, the result is that of the registered class applied to what the
method returns (or the method's exception); otherwise `ValueError`. -/
theorem C30_registered_partial (hl : PyLower lower) (name : String) (hn : name ∈ lawNames)
    (material : String → Option (Except PyErr κ)) :
    ∃ c, (name, c) ∈ constitutiveLaws ∧
      (∀ kw, material ("__" ++ name ++ "__") = some (.ok kw) →
        createLaw lower mkLaw name material = mkLaw c kw) ∧
      (∀ e, material ("__" ++ name ++ "__") = some (.error e) →
        createLaw lower mkLaw name material = .error e) ∧
      (material ("__" ++ name ++ "__") = none →
        createLaw lower mkLaw name material = .error .valueError) := by
  have hfix : lower name = name := hl.fixed _ (by
    simp only [lawNames, List.mem_cons, List.not_mem_nil, or_false] at hn
    simp only [List.mem_cons, List.not_mem_nil, or_false]
    tauto)
  obtain ⟨c, hc⟩ := (lookup_isSome_iff constitutiveLaws name).2 (by simpa [constitutiveLaws, lawNames] using hn)
  refine ⟨c, ?_, ?_, ?_, ?_⟩
  · simp only [lawNames, List.mem_cons, List.not_mem_nil, or_false] at hn
    rcases hn with rfl | rfl | rfl | rfl | rfl | rfl | rfl | rfl <;>
      simp [constitutiveLaws, List.lookup] at hc ⊢ <;> exact hc.symm
  all_goals
    unfold createLaw
    rw [hfix, hc]
  · intro kw h; simp [h]
  · intro e h; simp [h]
  · intro h; simp [h]

/-- A library material: it has exactly the special methods of its class. -/
def HasMethods (c : MatClass) (material : String → Option (Except PyErr κ)) : Prop :=
  ∀ a, a.toList.take 2 = ['_', '_'] → ((∃ r, material a = some r) ↔ a ∈ c.methods)

/-- **C30 (support).** For the library's materials the lower-case names that can produce a law are
exactly those in the table of the class; `initialstrain` is never available and
`bilinearcompression` not for EC2 2023 concrete. -/
theorem C30_support (hl : PyLower lower) (c : MatClass) (material : String → Option (Except PyErr κ))
    (hm : HasMethods c material) (name : String) (hn : name ∈ lawNames) (b : β)
    (h : createLaw lower mkLaw name material = .ok b) :
    name ∈ (match c with
      | .concreteMC2010 | .concreteEC2_2004 =>
        ["elastic", "bilinearcompression", "parabolarectangle", "sargin", "popovics"]
      | .concreteEC2_2023 => ["elastic", "parabolarectangle", "sargin", "popovics"]
      | .reinforcementMC2010 | .reinforcementEC2_2004 | .reinforcementEC2_2023 =>
        ["elastic", "elasticperfectlyplastic", "elasticplastic"]
      | .basicElastic => ["elastic"]
      | .basicElasticPlastic => ["elasticplastic"]) := by
  obtain ⟨k, -, -, -, h3⟩ := C30_registered_partial lower mkLaw hl name hn material
  have hsome : ∃ r, material ("__" ++ name ++ "__") = some r := by
    cases hr : material ("__" ++ name ++ "__") with
    | none => rw [h3 hr] at h; cases h
    | some r => exact ⟨r, rfl⟩
  have hmem := (hm _ (by simp)).1 hsome
  have hinj : ∀ s t : String, "__" ++ s ++ "__" = "__" ++ t ++ "__" → s = t := by
    intro s t hst
    have := congrArg String.toList hst
    simp only [String.toList_append, List.append_assoc] at this
    exact String.toList_inj.1 (List.append_cancel_right (List.append_cancel_left this))
  have hmem' : ∀ l : List String, "__" ++ name ++ "__" ∈ l.map (fun s => "__" ++ s ++ "__") → name ∈ l := by
    intro l h
    obtain ⟨s, hs, he⟩ := List.mem_map.1 h
    rw [← hinj _ _ he]; exact hs
  cases c <;> (apply hmem'; exact hmem)

/-- **C30, violated.** A mixed-case spelling of a registered name passes the registry lookup but the
material's method is looked up with the original spelling: for every library material (whose special
methods are all lower case) and every spelling that differs from the lower-case name, the factory
raises `ValueError`, also where the lower-case name succeeds. -/
theorem C30_case_violated (hl : PyLower lower) (c : MatClass)
    (material : String → Option (Except PyErr κ)) (hm : HasMethods c material) (name : String)
    (hreg : lower name ∈ lawNames) (hne : name ≠ lower name) :
    createLaw lower mkLaw name material = .error .valueError := by
  unfold createLaw
  obtain ⟨k, hk⟩ := (lookup_isSome_iff constitutiveLaws (lower name)).2
    (by simpa [constitutiveLaws, lawNames] using hreg)
  rw [hk]
  cases hr : material ("__" ++ name ++ "__") with
  | none => simp
  | some r =>
    exfalso
    have hmem := (hm _ (by simp)).1 ⟨r, hr⟩
    have hinj : ∀ s t : String, "__" ++ s ++ "__" = "__" ++ t ++ "__" → s = t := by
      intro s t hst
      have := congrArg String.toList hst
      simp only [String.toList_append, List.append_assoc] at this
      exact String.toList_inj.1 (List.append_cancel_right (List.append_cancel_left this))
    have hall : ∀ a ∈ c.methods, ∃ s ∈ lawNames, a = "__" ++ s ++ "__" := by
      have hl' : ∀ s ∈ lawNames, ("__" ++ s ++ "__") ∈ lawNames.map (fun s => "__" ++ s ++ "__") :=
        fun s hs => List.mem_map_of_mem hs
      intro a ha
      have : a ∈ lawNames.map (fun s => "__" ++ s ++ "__") := by
        revert ha
        cases c <;> simp only [MatClass.methods, lawNames, List.map_cons, List.map_nil, List.mem_cons,
          List.not_mem_nil, or_false] <;> (intro ha; revert ha; simp <;> tauto)
      obtain ⟨s, hs, rfl⟩ := List.mem_map.1 this
      exact ⟨s, hs, rfl⟩
    obtain ⟨s, hs, he⟩ := hall _ hmem
    have := hinj _ _ he
    subst this
    exact hne (hl.fixed _ (by
      simp only [lawNames, List.mem_cons, List.not_mem_nil, or_false] at hs
      simp only [List.mem_cons, List.not_mem_nil, or_false]
      tauto)).symm

/-- `'Elastic'` is such a spelling. -/
example : String.toLower "Elastic" ∈ lawNames ∧ "Elastic" ≠ String.toLower "Elastic" := by
  have : String.toLower "Elastic" = "elastic" := by
    apply String.toList_inj.1
    simp only [String.toLower, String.toList_map]
    decide
  rw [this]
  decide

/-! ### C31 -/

/-- The class for a name, by its lower-case form. -/
def integratorFor (lower : String → String) (name : String) : IntegratorClass :=
  if lower name = "fiber" then .fiber else .marin

theorem registry_getD (lower : String → String) (name : String) :
    (integratorRegistry.lookup (lower name)).getD .marin = integratorFor lower name := by
  unfold integratorFor integratorRegistry
  by_cases h1 : lower name = "marin"
  · simp [h1, List.lookup]
  · by_cases h2 : lower name = "fiber"
    · simp [h2, List.lookup]
    · have b1 : (lower name == "marin") = false := by simpa using h1
      have b2 : (lower name == "fiber") = false := by simpa using h2
      simp [List.lookup, b1, b2, h2]

theorem factoryHistory_lookup (hist : List String) (k : String) (v : IntegratorClass)
    (h : (factoryHistory lower hist).lookup k = some v) :
    v = if k = "fiber" then .fiber else .marin := by
  induction hist with
  | nil => simp [factoryHistory] at h
  | cons m rest ih =>
    simp only [factoryHistory, factoryCall] at h
    cases hl : (factoryHistory lower rest).lookup (lower m) with
    | some w => rw [hl] at h; exact ih h
    | none =>
      rw [hl] at h
      simp only [List.lookup] at h
      by_cases hk : k = lower m
      · subst hk
        simp only [beq_self_eq_true, Option.some.injEq] at h
        rw [← h, registry_getD]; rfl
      · have : (k == lower m) = false := by simpa using hk
        rw [this] at h
        exact ih h

/-- **C31.** After any history of calls, for every name the factory returns the fiber integrator if
the name is `fiber` in any letter case, and the Marin integrator otherwise (also for unknown
names); in particular the answer depends only on the lower-case name. -/
theorem C31_history_independent (hist : List String) (name : String) :
    (factoryCall lower name (factoryHistory lower hist)).2 =
      some (if lower name = "fiber" then .fiber else .marin) := by
  simp only [factoryCall]
  cases hl : (factoryHistory lower hist).lookup (lower name) with
  | some w =>
    rw [hl, factoryHistory_lookup lower hist _ _ hl]
  | none =>
    simp only [List.lookup, beq_self_eq_true, registry_getD]
    rfl

end SC
