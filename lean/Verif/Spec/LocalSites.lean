import Verif.Model.LocalSites
/-
What the order of a local environment means.
-/
namespace KMC.Spec
open KMC LocalSites
variable {S K : Type} [LinearOrder S] [LinearOrder K]

/-- The sort keys there are. -/
def sortKeyNames : List String := ["species_string", "species", "cartesian_x", "cartesian_y", "cartesian_z"]

/-- `a` is smaller than `b` as far as the named key can tell. -/
def Less (key : String) (a b : Site S K) : Prop :=
  (key = "species_string" ∧ a.text < b.text) ∨ (key = "species" ∧ a.specie < b.specie) ∨
  (key = "cartesian_x" ∧ a.coords.1 < b.coords.1) ∨ (key = "cartesian_y" ∧ a.coords.2.1 < b.coords.2.1) ∨
  (key = "cartesian_z" ∧ a.coords.2.2 < b.coords.2.2)

/-- The first key that tells `a` and `b` apart puts `a` first. -/
def Precedes (keys : List String) (a b : Site S K) : Prop :=
  ∃ before key after, keys = before ++ key :: after ∧ Less key a b ∧
    ∀ k ∈ before, ¬ Less k a b ∧ ¬ Less k b a

/-- No key tells `a` and `b` apart. -/
def Tied (keys : List String) (a b : Site S K) : Prop := ∀ k ∈ keys, ¬ Less k a b ∧ ¬ Less k b a

/-- `out` lists what `inp` lists, in the order of the keys, and leaves tied entries in the order they
had: of two tied entries of `out` the first comes first in `inp`. -/
structure SortedAs {α : Type} (site : α → Site S K) (keys : List String) (inp out : List α) : Prop where
  same : out.Perm inp
  sorted : out.Pairwise fun a b => ¬ Precedes keys (site b) (site a)
  stable : ∀ a, ∀ p : α → Bool, (∀ x, p x = true ↔ Tied keys (site x) (site a)) →
    out.filter p = inp.filter p

/-- pymatgen's search is exact: it lists, once each, the periodic images of the given sites within the
radius. -/
structure ExactSphere (geo : Geometry S K) (image : Site S K → Int × Int × Int → Site S K) : Prop where
  nodup : ∀ sites c r, (geo.sphere sites c r).Nodup
  mem : ∀ sites c r h, h ∈ geo.sphere sites c r ↔
    (∃ s, sites[h.index]? = some s ∧ h.site = image s h.image) ∧ geo.dist h.site.coords c ≤ r

/-- The sites a mapping allows to change: the first entry for their species lists several species. -/
def changeable {σ : Type} (eqv : σ → σ → Bool) (mapping : List (σ × List σ))
    (template : List (TemplateSite σ S K)) : List (TemplateSite σ S K) :=
  template.filter fun s =>
    match mapping.find? fun kv => eqv s.species kv.1 with
    | some kv => decide (1 < kv.2.length)
    | none => false

/-- The two orders the library knows by name. -/
def plainOrder (tol : K) : Order K := ⟨"kmcpy_default", ["species_string"], false, tol⟩

/-- See `plainOrder`. -/
def nasiconOrder (tol : K) : Order K :=
  ⟨"nasicon_nat_commun_2022", ["species", "cartesian_x"], true, tol⟩

/-- The order a user gets: none given means the plain one, a known name the order of that name, a
dictionary needs a name and overrides what it lists. -/
def ChosenOrder (tol : K) : OrderArg K → Order K → Prop
  | .absent, o => o = plainOrder tol
  | .object given, o => o = given
  | .name s, o => (s = "kmcpy_default" ∧ o = plainOrder tol) ∨
      (s = "nasicon_nat_commun_2022" ∧ o = nasiconOrder tol)
  | .dict d, o => ∃ name, d.name = some name ∧ o.name = name ∧
      let std := if name = "nasicon_nat_commun_2022" then nasiconOrder tol else plainOrder tol
      o.sortKeys = d.sortKeys.getD std.sortKeys ∧ o.excludeCenter = d.excludeCenter.getD std.excludeCenter ∧
      o.tolerance = d.tolerance.getD tol
  | .other, _ => False

/-- Where the centre is: a site given by its number in the template has, among the changeable sites,
the number of changeable sites before it; a point has no number. -/
def CentreAt {σ : Type} (geo : Geometry S K) (eqv : σ → σ → Bool) (mapping : List (σ × List σ))
    (template : List (TemplateSite σ S K)) : Center K → Option Int → Point K → Prop
  | .index i, number, position => ∃ (n : Nat) (t : TemplateSite σ S K), i = n ∧ template[n]? = some t ∧
      t ∈ changeable eqv mapping [t] ∧
      number = some ((changeable eqv mapping (template.take n)).length : Int) ∧ position = t.site.coords
  | .point c, number, position => number = none ∧ position = geo.toCartesian c
  | .other, _, _ => False

end KMC.Spec
