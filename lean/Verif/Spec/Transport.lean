import Verif.Model.Transport
/-
Textbook definitions of the transport quantities.
-/
namespace KMC.Spec
open KMC

/-- Squared Euclidean length. -/
noncomputable def sqLen (v : Vec3 ℝ) : ℝ := ∑ c, v c ^ 2

/-- Mean squared displacement of `n` ions. -/
noncomputable def meanSquare (ds : List (Vec3 ℝ)) : ℝ := (ds.map sqLen).sum / (ds.length : ℝ)

/-- A property is switched on unless the table says otherwise. -/
def SwitchedOn (flags : List (String × Bool)) (name : String) : Prop :=
  dictGet flags name ≠ some false

/-- The value of a row under its published name. -/
def rowValue (r : TransportRow) : String → Option (Option ℝ)
  | "msd" => some r.msd
  | "jump_diffusivity" => some r.jumpDiffusivity
  | "tracer_diffusivity" => some r.tracerDiffusivity
  | "conductivity" => some r.conductivity
  | "havens_ratio" => some r.havensRatio
  | "correlation_factor" => some r.correlationFactor
  | _ => none

/-- Every hop an event of the list can make is at most `a` long. -/
def HopsWithin (g : Geometry ℝ) (a : ℝ) (events : List Event) : Prop :=
  ∀ e ∈ events, ∀ d disp, wrappedHopDisplacement g e d = .ok disp → sqLen disp ≤ a ^ 2

end KMC.Spec
