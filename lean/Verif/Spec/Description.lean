import Verif.Spec.Network
import Verif.Model.Transport
/-
Specification vocabulary for C118: two descriptions of one crystal.
-/
namespace KMC.Spec

variable {K : Type} [Field K] [LinearOrder K]

/-- The crystal `g'` is `g` drawn with other Cartesian axes (`Q` turns old into new Cartesian
coordinates) and another origin (all fractional coordinates are shifted by `w`). -/
structure Redrawn (Q : Matrix (Fin 3) (Fin 3) K) (w : Vec3 K) (g g' : Geometry K) : Prop where
  lattice : g'.lattice = g.lattice * Q
  sites : g'.fracCoords = g.fracCoords.map (fun a => a + w)
  symbols : g'.nMobileSymbolSites = g.nMobileSymbolSites

/-- The crystal `g'` is `g` in another cell, with other periodic images of the sites: the new
lattice vectors are the integer combinations `N` of the old ones (`N'` is the inverse, so both
span the same lattice), and each site is where it was up to a lattice translation. -/
structure Recelled (N N' : Matrix (Fin 3) (Fin 3) ℤ) (g g' : Geometry K) : Prop where
  inverse : N * N' = 1
  lattice : g'.lattice = N.map (fun z : ℤ => (z : K)) * g.lattice
  count : g'.fracCoords.length = g.fracCoords.length
  sites : ∀ (i : Nat) (a a' : Vec3 K), g.fracCoords[i]? = some a → g'.fracCoords[i]? = some a' →
    ∃ n : Fin 3 → ℤ, a = Matrix.vecMul a' (N.map (fun z : ℤ => (z : K))) + fun c => (n c : K)
  symbols : g'.nMobileSymbolSites = g.nMobileSymbolSites

/-- Every event joins two sites of the crystal, and their connection is shorter than half a cell
along each lattice direction, in the old cell as well as in the new one. -/
def ShortHops (N' : Matrix (Fin 3) (Fin 3) ℤ) (g : Geometry K) (events : List Event) : Prop :=
  ∀ e ∈ events, ∃ (i j : Nat) (a b f : Vec3 K), e.mobile = [(i : Int), (j : Int)] ∧
    g.fracCoords[i]? = some a ∧ g.fracCoords[j]? = some b ∧
    (∀ c, ∃ n : ℤ, f c = b c - a c + (n : K)) ∧ (∀ c, |f c| < 1 / 2) ∧
    ∀ c, |Matrix.vecMul f (N'.map (fun z : ℤ => (z : K))) c| < 1 / 2

/-- Two trackers agree: same sites, same hop counts, and displacements that differ by the change of
Cartesian axes only. -/
structure SameTracks (Q : Matrix (Fin 3) (Fin 3) K) (t t' : Trajectory K) : Prop where
  locations : t'.locations = t.locations
  hops : t'.hopCounter = t.hopCounter
  displacement : t'.displacement = t.displacement.map (fun v => Matrix.vecMul v Q)

/-- Two runs agree: same outcome, same final simulation object, same sampled properties and summary
rows, trackers that agree. -/
structure SameRun {σ φ M R T V Row : Type} (Q : Matrix (Fin 3) (Fin 3) K)
    (r r' : RunResult σ φ M R T K V Row) : Prop where
  outcome : r'.outcome = r.outcome
  sim : r'.sim = r.sim
  tracker : ∀ x, r.tracker = some x → ∃ x', r'.tracker = some x' ∧ x'.sim = x.sim ∧
    x'.sampler = x.sampler ∧ x'.currentPass = x.currentPass ∧ SameTracks Q x.traj x'.traj
  noTracker : r.tracker = none → r'.tracker = none

end KMC.Spec
