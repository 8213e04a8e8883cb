import Verif.Model.ActiveSiteOrder
/-
Chemical reading of an occupation vector, independent of the hop lookup tables.
-/
namespace KMC.Spec

/-- The labels kMCpy treats as a vacancy. -/
def IsVacancyLabel (s : String) : Prop := s = "X" ∨ s = "Vacancy" ∨ s = "vacancy" ∨ s = "Va" ∨ s = "VA"

/-- The species allowed on active site `i`. -/
def allowedAt {φ : Type} (o : ActiveSiteOrder String φ) (i : Nat) : Option (List String) :=
  match o.activeToPrimitive[i]? with
  | none => none
  | some p => o.allowedSpeciesByPrimitiveSite[p]?

/-- The species a state index `v` stands for on active site `i`: the `v`-th allowed
species of that site. -/
def speciesOf {φ : Type} (o : ActiveSiteOrder String φ) (i : Nat) (v : Int) : Option String :=
  match allowedAt o i with
  | none => none
  | some a => if v < 0 then none else a[v.toNat]?

/-- The species on active site `i` when the state index there is `occ[i]`. -/
def speciesAt {φ : Type} (o : ActiveSiteOrder String φ) (occ : List Int) (i : Nat) :
    Option String :=
  match occ[i]? with
  | none => none
  | some v => speciesOf o i v

/-- The species on all sites, in site order. -/
def speciesList {φ : Type} (o : ActiveSiteOrder String φ) (occ : List Int) : List (Option String) :=
  (List.range occ.length).map (speciesAt o occ)

/-- Number of sites carrying species `s`. -/
def speciesCount {φ : Type} (o : ActiveSiteOrder String φ) (occ : List Int) (s : String) : Nat :=
  (speciesList o occ).count (some s)

/-- Every site of `occ` is in one of its allowed states, each site lists the mobile ion
and the vacancy at most once, and the mobile ion is not a vacancy label. -/
structure WellLabelled {φ : Type} (o : ActiveSiteOrder String φ) (mobile : String)
    (occ : List Int) : Prop where
  length : occ.length = o.activeToPrimitive.length
  valid : ∀ i, i < occ.length → ∃ s, speciesAt o occ i = some s
  mobileOnce : ∀ a ∈ o.allowedSpeciesByPrimitiveSite, ∀ (k l : Nat),
    a[k]? = some mobile → a[l]? = some mobile → k = l
  vacancyOnce : ∀ a ∈ o.allowedSpeciesByPrimitiveSite, ∀ (k l : Nat) s t,
    a[k]? = some s → a[l]? = some t → IsVacancyLabel s → IsVacancyLabel t → k = l
  mobileNotVacancy : ¬ IsVacancyLabel mobile

end KMC.Spec
