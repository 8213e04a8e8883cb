import Mathlib.Data.Fintype.Prod
import Verif.Model.EventStats
import Verif.Spec.Basic
/-
What the statistics of an event library should count.
-/
namespace KMC.Spec
open KMC

instance (a b : List Int) : Decidable (ShareSite a b) :=
  decidable_of_iff (∃ s ∈ a, s ∈ b) (by simp [ShareSite])

/-- The sites an event mentions, hop sites and environment. -/
def sitesOf (es : List Event) (i : Fin es.length) : List Int := es[i].mobile ++ es[i].env

/-- The number of events that share a site with event `i` (itself included). -/
def affected (es : List Event) (i : Fin es.length) : Nat :=
  (Finset.univ.filter fun j : Fin es.length => ShareSite (sitesOf es i) (sitesOf es j)).card

/-- The number of ordered pairs of events that share a site. -/
def overlaps (es : List Event) : Nat :=
  (Finset.univ.filter fun p : Fin es.length × Fin es.length =>
    ShareSite (sitesOf es p.1) (sitesOf es p.2)).card

end KMC.Spec
