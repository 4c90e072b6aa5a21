import Verif.Model.Py
import Mathlib.Data.String.Basic

/-! # Factories and global design-code state -/

set_option autoImplicit false

namespace SC

/-- What the factories need to know about Python's `str.lower()`: applying it twice is the same as
once, and the registered names (lower-case ASCII words with digits and underscores) are unchanged.
(`String.toLower`, which lowers ASCII letters only, is an instance: `asciiLower`.) -/
structure PyLower (lower : String → String) : Prop where
  idem : ∀ s, lower (lower s) = lower s
  fixed : ∀ s ∈ ["mc2010", "mc2020", "ec2_2004", "ec2_2023", "elastic", "elasticplastic",
    "elasticperfectlyplastic", "bilinearcompression", "parabolarectangle", "popovics", "sargin",
    "initialstrain", "marin", "fiber"], lower s = s

/-! ### Design code -/

/-- A Python module: its identity, whether it has the three attributes of a design code, its
`__title__` and its `__materials__`. -/
structure CodeModule where
  ident : String
  isCode : Bool
  title : String
  materials : List String
  deriving DecidableEq

/-- codes/mc2010/__init__.py:207-209. -/
def mc2010 : CodeModule := ⟨"mc2010", true, "fib Model Code 2010", ["concrete", "reinforcement"]⟩
/-- codes/mc2020/__init__.py:5-7. -/
def mc2020 : CodeModule := ⟨"mc2020", true, "fib Model Code 2020", ["concrete", "reinforcement"]⟩
/-- codes/ec2_2004/__init__.py:183-185. -/
def ec2_2004 : CodeModule := ⟨"ec2_2004", true, "EUROCODE 2 1992-1-1:2004", ["concrete", "reinforcement"]⟩
/-- codes/ec2_2023/__init__.py:102-104. -/
def ec2_2023 : CodeModule := ⟨"ec2_2023", true, "EUROCODE 2 1992-1-1:2023", ["concrete", "reinforcement"]⟩

/-- codes/__init__.py:25-30 `_DESIGN_CODES`. -/
def designCodes : List (String × CodeModule) :=
  [("mc2010", mc2010), ("mc2020", mc2020), ("ec2_2004", ec2_2004), ("ec2_2023", ec2_2023)]

/-- Argument of `set_design_code`: `None`, a string, a module, or anything else. -/
inductive CodeArg
  | none
  | str (s : String)
  | mod (m : CodeModule)
  | other

/-- Module-level variables of codes/__init__.py:19-22: `_CODE`, `_NATIONAL_ANNEX`. -/
structure Globals where
  code : Option CodeModule
  annex : Option String

/-- codes/__init__.py:33-63 `set_design_code`. -/
def setDesignCode (lower : String → String) (a : CodeArg) (g : Globals) :
    Globals × Except PyErr Unit :=
  match a with
  | .none => ({ g with code := none }, .ok ())
  | .str s =>
    match designCodes.lookup (lower s) with
    | some m => ({ g with code := some m }, .ok ())
    | none => (g, .error .valueError)
  | .mod m => if m.isCode then ({ g with code := some m }, .ok ()) else (g, .error .valueError)
  | .other => (g, .error .valueError)

/-- codes/__init__.py:85-102 `_use_design_code`. -/
def useDesignCode (lower : String → String) (a : CodeArg) (g : Globals) :
    Globals × Except PyErr (Option CodeModule) :=
  match a with
  | .none => (g, .ok g.code)
  | a =>
    match setDesignCode lower a g with
    | (g', .error e) => (g', .error e)
    | (g', .ok ()) => (g', .ok g'.code)

/-- Concrete classes and reinforcement classes of the library. -/
inductive MatClass
  | concreteMC2010 | concreteEC2_2004 | concreteEC2_2023
  | reinforcementMC2010 | reinforcementEC2_2004 | reinforcementEC2_2023
  | basicElastic | basicElasticPlastic
  deriving DecidableEq

/-- materials/concrete/__init__.py:20-24 `CONCRETES`. -/
def concretes : List (String × MatClass) :=
  [("fib Model Code 2010", .concreteMC2010), ("EUROCODE 2 1992-1-1:2004", .concreteEC2_2004),
   ("EUROCODE 2 1992-1-1:2023", .concreteEC2_2023)]

/-- materials/reinforcement/__init__.py:20-24 `REINFORCEMENTS`. -/
def reinforcements : List (String × MatClass) :=
  [("fib Model Code 2010", .reinforcementMC2010), ("EUROCODE 2 1992-1-1:2004", .reinforcementEC2_2004),
   ("EUROCODE 2 1992-1-1:2023", .reinforcementEC2_2023)]

/-- materials/concrete/__init__.py:27-86 `create_concrete` and
materials/reinforcement/__init__.py:27-92 `create_reinforcement` (`kind`: 'concrete' or
'reinforcement', `table` the dictionary of classes).  `mk` is the constructor call with all other
arguments; `none` is Python's `None`. -/
def createMaterial {α : Type} (lower : String → String) (kind : String)
    (table : List (String × MatClass)) (mk : MatClass → Except PyErr α) (a : CodeArg) (g : Globals) :
    Globals × Except PyErr (Option α) :=
  match useDesignCode lower a g with
  | (g', .error e) => (g', .error e)
  | (g', .ok none) => (g', .error .valueError)
  | (g', .ok (some m)) =>
    if kind ∈ m.materials then
      match table.lookup m.title with
      | none => (g', .ok none)
      | some c =>
        match mk c with
        | .error e => (g', .error e)
        | .ok x => (g', .ok (some x))
    else (g', .error .valueError)

/-- Operations of a user on the global state. -/
inductive CodeOp
  | setCode (a : CodeArg)
  | setAnnex (s : String)
  | getCodes
  | concrete (a : CodeArg)
  | reinforcement (a : CodeArg)

/-- One operation (constructor arguments fixed by `mk`). -/
def CodeOp.run {α : Type} (lower : String → String) (mk : MatClass → Except PyErr α) (op : CodeOp)
    (g : Globals) : Globals × Except PyErr (Option α) :=
  match op with
  | .setCode a => match setDesignCode lower a g with
    | (g', .error e) => (g', .error e)
    | (g', .ok ()) => (g', .ok none)
  -- codes/__init__.py:71-82 `set_national_annex`
  | .setAnnex s => ({ g with annex := some (lower s) }, .ok none)
  -- codes/__init__.py:66-68 `get_design_codes`
  | .getCodes => (g, .ok none)
  | .concrete a => createMaterial lower "concrete" concretes mk a g
  | .reinforcement a => createMaterial lower "reinforcement" reinforcements mk a g

/-- Global state after a history of operations (exceptions are caught by the user). -/
def runOps {α : Type} (lower : String → String) (mk : MatClass → Except PyErr α) :
    List CodeOp → Globals → Globals
  | [], g => g
  | op :: rest, g => runOps lower mk rest (op.run lower mk g).1

/-! ### Constitutive law factory -/

/-- Constitutive law classes. -/
inductive LawClass
  | elastic | elasticPlastic | bilinearCompression | parabolaRectangle | popovics | sargin
  | initialStrain
  deriving DecidableEq

/-- materials/constitutive_laws/__init__.py:30-39 `CONSTITUTIVE_LAWS`. -/
def constitutiveLaws : List (String × LawClass) :=
  [("elastic", .elastic), ("elasticplastic", .elasticPlastic),
   ("elasticperfectlyplastic", .elasticPlastic), ("bilinearcompression", .bilinearCompression),
   ("parabolarectangle", .parabolaRectangle), ("popovics", .popovics), ("sargin", .sargin),
   ("initialstrain", .initialStrain)]

/-- materials/constitutive_laws/__init__.py:47-93 `create_constitutive_law`.  A material is the
partial map from attribute names to its callable attributes (each returning keyword arguments or
raising); `mk` is the call of the class with the keyword arguments. -/
def createLaw {κ β : Type} (lower : String → String) (mk : LawClass → κ → Except PyErr β)
    (name : String) (material : String → Option (Except PyErr κ)) : Except PyErr β :=
  match constitutiveLaws.lookup (lower name) with
  | none => .error .valueError
  | some c =>
    match material ("__" ++ name ++ "__") with
    | none => .error .valueError
    | some (.error e) => .error e
    | some (.ok kw) => mk c kw

/-- The special methods of the material classes: materials/concrete/_concreteEC2_2004.py:500-538,
_concreteEC2_2023.py:478-508, _concreteMC2010.py:521-559,
materials/reinforcement/_reinforcementEC2_2004.py:128-152, _reinforcementEC2_2023.py:116-140,
_reinforcementMC2010.py:124-148, materials/basic/_elastic.py:64, _elasticplastic.py:83. -/
def MatClass.methods : MatClass → List String
  | .concreteMC2010 | .concreteEC2_2004 => ["__elastic__", "__bilinearcompression__",
      "__parabolarectangle__", "__sargin__", "__popovics__"]
  | .concreteEC2_2023 => ["__elastic__", "__parabolarectangle__", "__sargin__", "__popovics__"]
  | .reinforcementMC2010 | .reinforcementEC2_2004 | .reinforcementEC2_2023 =>
      ["__elastic__", "__elasticperfectlyplastic__", "__elasticplastic__"]
  | .basicElastic => ["__elastic__"]
  | .basicElasticPlastic => ["__elasticplastic__"]

/-! ### Integrator factory -/

/-- Integrator classes. -/
inductive IntegratorClass
  | marin | fiber
  deriving DecidableEq

/-- sections/section_integrators/_factory.py:9 `integrator_registry`. -/
def integratorRegistry : List (String × IntegratorClass) := [("marin", .marin), ("fiber", .fiber)]

/-- sections/section_integrators/_factory.py:22-38 `IntegratorFactory.__call__`: the dictionary of
instances before and after, and the returned class (`None` cannot happen, see C31). -/
def factoryCall (lower : String → String) (method : String)
    (instances : List (String × IntegratorClass)) :
    List (String × IntegratorClass) × Option IntegratorClass :=
  let v := (integratorRegistry.lookup (lower method)).getD .marin
  let inst := match instances.lookup (lower method) with
    | some _ => instances
    | none => (lower method, v) :: instances
  (inst, inst.lookup (lower method))

/-- State of the factory after a history of calls, starting from an empty dictionary. -/
def factoryHistory (lower : String → String) : List String → List (String × IntegratorClass)
  | [] => []
  | m :: earlier => (factoryCall lower m (factoryHistory lower earlier)).1

end SC
