import Verif.Model.Tracker
import Verif.Spec.Species
/-
What it means that the tracker follows the ions.
-/
namespace KMC.Spec
open KMC

/-- According to the lookup, site `k` of `occ` is in its mobile state. -/
def IonAt (h : HopStateLookup) (occ : List Int) (k : Nat) : Prop :=
  ∃ c, h.mobileStateBySite[k]? = some c ∧ c ≠ -1 ∧ occ[k]? = some c

/-- The tracked positions are pairwise distinct and are exactly the sites in their mobile
state. -/
structure Tracks {K : Type} (h : HopStateLookup) (t : Trajectory K) (occ : List Int) : Prop where
  nodup : t.locations.Nodup
  sites : ∀ i : Int, i ∈ t.locations ↔ ∃ k : Nat, i = (k : Int) ∧ IonAt h occ k

/-- One entry per tracked ion in every array. -/
structure Aligned {K : Type} (t : Trajectory K) : Prop where
  disp : t.displacement.length = t.locations.length
  hops : t.hopCounter.length = t.locations.length
  start : t.r0.length = t.locations.length

/-- Ion `i`: initial position plus accumulated displacement is the position of the site the
ion is now on, up to an integer combination `n` of the lattice vectors. -/
def Unwrapped {K : Type} [Field K] (g : Geometry K) (t : Trajectory K) (i : Nat) : Prop :=
  ∃ (loc : Int) (r d f : Vec3 K) (n : Fin 3 → ℤ),
    t.locations[i]? = some loc ∧ t.r0[i]? = some r ∧ t.displacement[i]? = some d ∧
    pyGet g.fracCoords loc = .ok f ∧
    r + d = Matrix.vecMul (fun c => f c + (n c : K)) g.lattice

/-- Endpoint codes of an annotated event: both endpoints use the same number `a` for the
mobile ion and the same number `b` for the vacancy. -/
structure SameCodes (h : HopStateLookup) (e : Event) (f t : Nat) (a b : Int) : Prop where
  mobile : e.mobile = [(f : Int), (t : Int)]
  mf : h.mobileStateBySite[f]? = some a
  mt : h.mobileStateBySite[t]? = some a
  vf : h.vacancyStateBySite[f]? = some b
  vt : h.vacancyStateBySite[t]? = some b
  codes : e.codes = some ⟨a, b, b, a⟩
  differ : a ≠ b

end KMC.Spec
