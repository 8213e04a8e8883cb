import Verif.Model.SiteEnergy
/-
What an external energy calculator should see of a simulation state, stated with the two
mappings alone (no look-up tables).
-/
namespace KMC.Spec
open KMC

variable {Rt T : Type}

/-- The external site of active site `i`: the same number without a site mapping, else the entry
of the mapping. -/
def extSite (m : SiteEnergy Rt T) (i : Nat) : Option Int :=
  match m.siteMapping with
  | none => some (i : Int)
  | some d => dictGet d (i : Int)

/-- The external value of state `state` on active site `i`: from the site's own mapping if there
is one, else from the common mapping, else the state number itself. -/
def extValue (m : SiteEnergy Rt T) (i : Nat) (state : Int) : Option ExtVal :=
  match m.stateMappingBySite.bind (dictGet · (i : Int)) with
  | some d => dictGet d state
  | none =>
    match m.stateMapping with
    | none => some (.int state)
    | some d => dictGet d state

/-- Equal for Python: the same number or the same object. -/
def SameValue (a b : ExtVal) : Prop := a.key = b.key

/-- `ext` is the picture of the occupations `occ` on the background `bg`: every active site's
external site holds the value mapped to its current state, every other entry is that of the
background. -/
structure Mirrors (m : SiteEnergy Rt T) (bg : List ExtVal) (occ : List Int) (ext : List ExtVal) :
    Prop where
  length : ext.length = bg.length
  active : ∀ (i : Nat) v, occ[i]? = some v → ∃ (p : Nat) (x w : ExtVal),
    extSite m i = some (p : Int) ∧ extValue m i v = some x ∧ ext[p]? = some w ∧ SameValue w x
  rest : ∀ p : Nat, (∀ i < occ.length, extSite m i ≠ some (p : Int)) → ext[p]? = bg[p]?

/-- Two different active sites have different external sites. -/
def SitesDistinct (m : SiteEnergy Rt T) (n : Nat) : Prop :=
  ∀ i j : Nat, i < n → j < n → extSite m i = extSite m j → i = j

/-- An array of element type `d` can hold unchanged every value that any site may show for any of
the states present in `occ`. -/
def ValuesFit (m : SiteEnergy Rt T) (d : DType) (occ : List Int) : Prop :=
  ∀ (i : Nat) (state : Int) (x : ExtVal), i < occ.length → state ∈ occ →
    extValue m i state = some x → ∃ w, d.store x = .ok w ∧ SameValue w x

/-- Every site has a value for every state present in `occ`. -/
def MappingCovers (m : SiteEnergy Rt T) (occ : List Int) : Prop :=
  ∀ (i : Nat) (state : Int), i < occ.length → state ∈ occ → ∃ x, extValue m i state = some x

/-- The state mappings have one entry per state (as Python dictionaries do). -/
structure MappingsAreDicts (m : SiteEnergy Rt T) : Prop where
  common : ∀ d, m.stateMapping = some d → (dictKeys d).Nodup
  bySite : ∀ ds, m.stateMappingBySite = some ds → ∀ x ∈ ds, (dictKeys x.2).Nodup

/-- Entries of two external arrays agree for Python. -/
def SameArray (a b : List ExtVal) : Prop :=
  a.length = b.length ∧ ∀ (p : Nat) (x y : ExtVal), a[p]? = some x → b[p]? = some y → SameValue x y

/-- `changes` describes the hop of `e` on `occ`: it lists, from-site first, exactly the endpoints
whose external value differs between their present state and the state they would receive, with
the external site, both states and both values. -/
def DescribesHop (m : SiteEnergy Rt T) (e : Event) (occ : List Int)
    (changes : List OccupationChange) : Prop :=
  ∃ (f t : Int) (i j : Nat) (vf vt : Int) (pf pt : Int) (xf yf xt yt : ExtVal),
    e.mobile = [f, t] ∧ pyIdx occ.length f = some i ∧ pyIdx occ.length t = some j ∧
    occ[i]? = some vf ∧ occ[j]? = some vt ∧
    extSite m i = some pf ∧ extSite m j = some pt ∧
    extValue m i vf = some xf ∧ extValue m i vt = some yf ∧
    extValue m j vt = some xt ∧ extValue m j vf = some yt ∧
    changes =
      (if xf.key = yf.key then [] else [⟨f, pf, vf, vt, xf, yf⟩]) ++
      (if xt.key = yt.key then [] else [⟨t, pt, vt, vf, xt, yt⟩])

/-- The array with the new values of `changes` put in place. -/
def withChanges (ext : List ExtVal) (changes : List OccupationChange) : List ExtVal :=
  changes.foldl (fun x c => x.set c.externalSite.toNat c.newValue) ext

end KMC.Spec
