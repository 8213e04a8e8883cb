import Verif.Model.Callable
/-
What a user's function can be given, in terms of its signature.
-/
namespace KMC.Spec
open KMC Callable

/-- The function has a parameter of this name that can be given by keyword. -/
def Takes (ps : List Parameter) (name : String) : Prop :=
  ∃ p ∈ ps, p.name = name ∧ (p.kind = .positionalOrKeyword ∨ p.kind = .keywordOnly)

/-- The function has a parameter `**kwargs`. -/
def TakesAnything (ps : List Parameter) : Prop := ∃ p ∈ ps, p.kind = .varKeyword

/-- These names are enough to call the function: each parameter that has no default is one of them and can be given
by keyword. -/
def Enough (ps : List Parameter) (names : List String) : Prop :=
  ∀ p ∈ ps, p.hasDefault = false → p.kind ≠ .positionalOnly ∧
    (p.kind = .positionalOrKeyword ∨ p.kind = .keywordOnly → p.name ∈ names)

/-- The names of the arguments that a site-energy model supplies by itself. -/
def standardNames : List String := ["runtime", "external_occupation", "changes", "event", "simulation_state"]

/-- The value for a name: the user's, if the user gave one, otherwise what the model supplies. -/
def valueFor {V Rt T : Type} (kwargs : List (String × V)) (rt : Rt) (ext : List ExtVal)
    (cs : List OccupationChange) (e : Event) (st : State T) (name : String) : Option (Arg V Rt T) :=
  match dictGet kwargs name with
  | some v => some (.user v)
  | none =>
    if name = "runtime" then some (.runtime rt)
    else if name = "external_occupation" then some (.external ext)
    else if name = "changes" then some (.changes cs)
    else if name = "event" then some (.event e)
    else if name = "simulation_state" then some (.state st)
    else none

end KMC.Spec
