import Verif.Model.Tracker
import Verif.Model.Transport
import Verif.Model.FromConfig
/-
Model of the scripts in `kmcpy/tools`: reading occupations from Monte Carlo structures, collecting result files,
and computing transport properties from trajectory arrays.  Reading and writing files, plotting and pandas tables
are not modelled.
-/
namespace KMC
namespace Tools

/-- A structure as the scripts see it: fractional coordinates and element symbol of each site, in order. -/
abbrev Atoms (K : Type) := List (Vec3 K × String)

section
variable {K : Type} [Field K] [LinearOrder K] [FloorRing K]

/-- `rnd` of a row, `gather_mc_data.py:123-127`: `np.around(x, 0)` of every component. -/
def rnd (v : Vec3 K) : Vec3 K := fun c => (roundHalfEven (v c) : K)

/-- The square of one entry of `norm`, `gather_mc_data.py:130-135`. -/
def normSq (v : Vec3 K) : K := v 0 ^ 2 + v 1 ^ 2 + v 2 ^ 2

/-- `dists_cart < 1e-6` for one atom, `gather_mc_data.py:105-109`.  The code compares the root with `1e-6`; here the
square is compared with its square. -/
def isNear (lattice : Matrix (Fin 3) (Fin 3) K) (atom site : Vec3 K) : Bool :=
  let diffFrac := atom - site
  decide (normSq (Matrix.vecMul (diffFrac - rnd diffFrac) lattice) < (1 / 10 ^ 6) ^ 2)

/-- The symbols of the atoms at the site, `np.where(...)[0]`, `gather_mc_data.py:109`. -/
def matched (lattice : Matrix (Fin 3) (Fin 3) K) (atoms : Atoms K) (site : Vec3 K) : List String :=
  (atoms.filter fun a => isNear lattice a.1 site).map (·.2)

/-- The body of the loop, `gather_mc_data.py:104-117`; `in` is the substring test on texts. -/
def siteOcc (lattice : Matrix (Fin 3) (Fin 3) K) (atoms : Atoms K) (site : Vec3 K × String) : Int :=
  match matched lattice atoms site.1 with
  | [] => 1
  | symbol :: _ => if FromConfig.containsText symbol site.2 then -1 else 1

/-- `_get_occ`, `gather_mc_data.py:96-120`. -/
def occOf (lattice : Matrix (Fin 3) (Fin 3) K) (atoms template : Atoms K) : List Int :=
  template.map (siteOcc lattice atoms)

/-- `structure.remove_species(["Zr", "O"])`, `gather_mc_data.py:27, 78`. -/
def withoutFramework (atoms : Atoms K) : Atoms K := atoms.filter fun a => not (["Zr", "O"].contains a.2)

/-- `get_occ`, `gather_mc_data.py:75-93`, from the read structures on. -/
def getOcc (lattice : Matrix (Fin 3) (Fin 3) K) (atoms template : Atoms K) : List Int :=
  occOf lattice (withoutFramework atoms) template

/-- `isExist`, `gather_mc_data.py:56-63`; `distance` is pymatgen's. -/
def isExist (distance : Vec3 K → Vec3 K → K) (atoms : Atoms K) (s : Vec3 K × String) : Bool :=
  atoms.any fun a => decide (s.2 = a.2) && decide (distance a.1 s.1 < 1 / 10 ^ 3)

end

/-- `text.split(sep)` for a non-empty separator: `skip` characters of a separator are still to be passed over, `part`
is the piece being read, in reverse. -/
def splitGo (sep : List Char) : Nat → List Char → List Char → List (List Char)
  | _, part, [] => [part.reverse]
  | skip + 1, part, _ :: rest => splitGo sep skip part rest
  | 0, part, c :: rest =>
    if sep.isPrefixOf (c :: rest) then part.reverse :: splitGo sep (sep.length - 1) [] rest
    else splitGo sep 0 (c :: part) rest

/-- `text.split(sep)`. -/
def split (sep : String) (text : String) : List String :=
  (splitGo sep.toList 0 [] text.toList).map String.ofList

/-- The texts that `float` and `int` are applied to, `gather_kmc_data.py:33-34`: composition and structure index. -/
def runOfName (location : String) : Py (String × String) :=
  match split ".csv.gz" location with
  | [] => .error .indexError
  | stem :: _ =>
    match (split "_" stem)[1]?, (split "_" stem)[2]? with
    | some x, some i => .ok (x, i)
    | _, _ => .error .indexError

/-- `search_string_list`, `gather_kmc_data.py:19-25`: `parse line` is `float(l.strip().split()[location])`. -/
def searchStringList {α : Type} (word : String) (parse : String → Py α) : List String → Py (List α)
  | [] => .ok []
  | l :: ls =>
    if FromConfig.containsText word l then
      match parse l with
      | .error e => .error e
      | .ok v =>
        match searchStringList word parse ls with
        | .error e => .error e
        | .ok vs => .ok (v :: vs)
    else searchStringList word parse ls

/-- `compute_chemical_diffusivity`, `get_data.py:14-15`. -/
noncomputable def chemicalDiffusivity (jump theta : ℝ) : ℝ := jump * theta

/-- `calc_transport_properties`, `get_data.py:25-48`: everything is enabled. -/
noncomputable def calcTransport (p : TransportParams) (displacement : List (Vec3 ℝ)) (hops : List Nat) (n : Nat)
    (time : EReal) : TransportRow :=
  computeTransport p displacement hops time n []

end Tools
end KMC
