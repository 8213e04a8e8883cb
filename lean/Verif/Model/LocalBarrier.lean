import Mathlib.Analysis.SpecialFunctions.Exp
import Verif.Model.Value
import Verif.Model.Hop
import Verif.Model.KMC
/-
Model of `kmcpy/models/local_barrier_model.py`.

Rule dictionaries and serialised models are dynamic values (`PyVal`); normalised rules are
structures.  Property values are Python floats (`PyFloat`).
-/
namespace KMC

/-! ### Text -/

/-- `text.strip()`. -/
def pyStrip (s : String) : String :=
  String.ofList ((s.toList.dropWhile Char.isWhitespace).reverse.dropWhile Char.isWhitespace).reverse

/-- `text.lower()`, on ASCII. -/
def pyLower (s : String) : String := String.ofList (s.toList.map Char.toLower)

/-- Truth value of `text.strip()`. -/
def notBlank (s : String) : Bool := s.toList.any fun c => !c.isWhitespace

/-- Decimal digit. -/
def digitChar (n : Nat) : Char := Char.ofNat (48 + n)

/-- Decimal digits of a natural number. -/
def natDigits (n : Nat) : List Char :=
  if n < 10 then [digitChar n] else natDigits (n / 10) ++ [digitChar (n % 10)]
termination_by n
decreasing_by omega

/-- `str(n)`. -/
def intStr (n : Int) : String :=
  match n with
  | .ofNat k => String.ofList (natDigits k)
  | .negSucc k => String.ofList ('-' :: natDigits (k + 1))

/-- Value of a string of decimal digits. -/
def parseDigits : List Char → Nat → Option Nat
  | [], acc => some acc
  | c :: cs, acc =>
    if 48 ≤ c.toNat ∧ c.toNat ≤ 57 then parseDigits cs (acc * 10 + (c.toNat - 48)) else none

/-- `int(text)`: surrounding blanks, an optional sign and decimal digits.  Underscores between
digits and non-ASCII digits are not modelled. -/
def parseInt (s : String) : Option Int :=
  match (pyStrip s).toList with
  | [] => none
  | '-' :: c :: cs => (parseDigits (c :: cs) 0).map fun n => -(n : Int)
  | '+' :: c :: cs => (parseDigits (c :: cs) 0).map fun n => (n : Int)
  | c :: cs => (parseDigits (c :: cs) 0).map fun n => (n : Int)

namespace LocalBarrier

/-- `STATE_VALUE_ALIASES`, `local_barrier_model.py:64-72`. -/
def stateAliases : List (String × Int) :=
  [("occupied", 0), ("match", 0), ("template", 0), ("vacant", 1), ("vacancy", 1),
   ("mismatch", 1), ("other", 1)]

/-- Site selectors, `local_barrier_model.py:74-81`, or an explicit tuple of indices. -/
inductive Sites where
  | canonical
  | localEnv
  | mobileIon
  | fromSite
  | toSite
  | all
  | listed (l : List Int)
  deriving DecidableEq, Repr

/-- The text of a selector, `local_barrier_model.py:74-81`. -/
def selectorOf : String → Option Sites
  | "canonical" => some .canonical
  | "local_env" => some .localEnv
  | "mobile_ion" => some .mobileIon
  | "from" => some .fromSite
  | "to" => some .toSite
  | "all" => some .all
  | _ => none

/-- Count constraints of a rule, `local_barrier_model.py:91` and `229-250`. -/
structure CountSpec where
  count : Option Int
  minCount : Option Int
  maxCount : Option Int
  deriving DecidableEq, Repr

/-- The rule types, `local_barrier_model.py:83-89`, with their normalised data. -/
inductive Kind where
  | constant
  | exact (occupations canonical : List Int)
  | pattern (sites : Sites) (pattern : List (Option Int))
  | stateCount (sites : Sites) (state : Int) (counts : CountSpec)
  | speciesCount (sites : Sites) (species : List String) (counts : CountSpec)
  deriving DecidableEq, Repr

/-- Named numeric properties. -/
abbrev Properties := List (String × PyFloat)

/-- A normalised rule, `local_barrier_model.py:324-393`. -/
structure Rule where
  name : String
  kind : Kind
  props : Properties
  mobile : Option (List Int)
  env : Option (List Int)
  deriving DecidableEq

/-! ### Normalisation -/

/-- Loop of `_normalize_index_sequence`, `local_barrier_model.py:102-106`. -/
def intsOf : List PyVal → Py (List Int)
  | [] => .ok []
  | .int n :: rest =>
    match intsOf rest with
    | .error e => .error e
    | .ok l => .ok (n :: l)
  | _ :: _ => .error .typeError

/-- `_normalize_index_sequence`, `local_barrier_model.py:94-107`. -/
def normalizeIndices (v : PyVal) (allowEmpty : Bool) : Py (List Int) :=
  let go (l : List PyVal) : Py (List Int) :=
    if l.isEmpty && !allowEmpty then .error .valueError else intsOf l
  match v with
  | .list l => go l
  | .tuple l => go l
  | _ => .error .typeError

/-- Loop of `_canonical_site_indices`, `local_barrier_model.py:113-120`. -/
def canonicalGo : List Int → List Int → List Int
  | [], seen => seen
  | i :: rest, seen => if i ∈ seen then canonicalGo rest seen else canonicalGo rest (seen ++ [i])

/-- `_canonical_site_indices`, `local_barrier_model.py:110-120`. -/
def canonicalSites (mobile env : List Int) : List Int := canonicalGo (mobile ++ env) []

/-- `_event_indices`, `local_barrier_model.py:123-134`, on an event whose indices are
integers. -/
def eventIndices (e : Event) : Py (List Int × List Int × List Int) :=
  if e.mobile = [] then .error .valueError
  else .ok (e.mobile, e.env, canonicalSites e.mobile e.env)

/-- `_normalize_state_value`, `local_barrier_model.py:137-159`. -/
def normalizeState : PyVal → Py Int
  | .bool _ => .error .typeError
  | .int n => if n < 0 then .error .valueError else .ok n
  | .str s =>
    let token := pyLower (pyStrip s)
    match dictGet stateAliases token with
    | some n => .ok n
    | none =>
      match parseInt token with
      | none => .error .valueError
      | some n => if n < 0 then .error .valueError else .ok n
  | _ => .error .valueError

/-- The generator in `_normalize_occupations`, `local_barrier_model.py:167`. -/
def statesOf : List PyVal → Py (List Int)
  | [] => .ok []
  | v :: rest =>
    match normalizeState v with
    | .error e => .error e
    | .ok n =>
      match statesOf rest with
      | .error e => .error e
      | .ok l => .ok (n :: l)

/-- `_normalize_occupations`, `local_barrier_model.py:162-167`. -/
def normalizeOccupations (v : PyVal) : Py (List Int) :=
  let go (l : List PyVal) : Py (List Int) :=
    if l.isEmpty then .error .valueError else statesOf l
  match v with
  | .list l => go l
  | .tuple l => go l
  | _ => .error .typeError

/-- `isinstance(value, str) and value.strip() == "*"`, `local_barrier_model.py:178`. -/
def isWildcard : PyVal → Bool
  | .str s => decide (pyStrip s = "*")
  | _ => false

/-- Loop of `_normalize_pattern`, `local_barrier_model.py:177-181`; `none` is `"*"`. -/
def patternOf : List PyVal → Py (List (Option Int))
  | [] => .ok []
  | v :: rest =>
    let head : Py (Option Int) :=
      if isWildcard v then .ok none
      else
        match normalizeState v with
        | .error e => .error e
        | .ok n => .ok (some n)
    match head with
    | .error e => .error e
    | .ok h =>
      match patternOf rest with
      | .error e => .error e
      | .ok l => .ok (h :: l)

/-- `_normalize_pattern`, `local_barrier_model.py:170-182`. -/
def normalizePattern (v : PyVal) : Py (List (Option Int)) :=
  let go (l : List PyVal) : Py (List (Option Int)) :=
    if l.isEmpty then .error .valueError else patternOf l
  match v with
  | .list l => go l
  | .tuple l => go l
  | _ => .error .typeError

/-- `float(value)` for a number that is not a boolean; anything else is rejected with
`TypeError` (`local_barrier_model.py:193-195`). -/
def numeric : PyVal → Py PyFloat
  | .int n => .ok (.fin n)
  | .float f => .ok f
  | _ => .error .typeError

/-- Loop of `_normalize_properties`, `local_barrier_model.py:190-195`. -/
def propertiesOf : List (String × PyVal) → Py Properties
  | [] => .ok []
  | (k, v) :: rest =>
    if !notBlank k then .error .valueError
    else
      match numeric v with
      | .error e => .error e
      | .ok f =>
        match propertiesOf rest with
        | .error e => .error e
        | .ok l => .ok ((k, f) :: l)

/-- `_normalize_properties`, `local_barrier_model.py:185-196`. -/
def normalizeProperties : PyVal → Py Properties
  | .dict d => if d.isEmpty then .error .valueError else propertiesOf d
  | _ => .error .valueError

/-- `_normalize_optional_properties`, `local_barrier_model.py:199-202`. -/
def optProperties : Option PyVal → Py (Option Properties)
  | none => .ok none
  | some .none => .ok none
  | some v =>
    match normalizeProperties v with
    | .error e => .error e
    | .ok p => .ok (some p)

/-- `d.setdefault(k, v)`. -/
def setDefault {α : Type} (d : List (String × α)) (k : String) (v : α) : List (String × α) :=
  match dictGet d k with
  | some _ => d
  | none => d ++ [(k, v)]

/-- `_properties_from_rule`, `local_barrier_model.py:205-212`.  `dict(...)` of anything but a
dictionary is taken to raise (iterables of pairs are not modelled). -/
def propertiesFromRule (rule : List (String × PyVal)) : Py Properties :=
  match (dictGet rule "properties").getD (.dict []) with
  | .dict d =>
    match dictGet rule "barrier" with
    | none => normalizeProperties (.dict d)
    | some b =>
      match numeric b with
      | .error e => .error e
      | .ok f => normalizeProperties (.dict (setDefault d "barrier" (.float f)))
  | _ => .error .typeError

/-- `_normalize_sites_spec`, `local_barrier_model.py:215-226`. -/
def normalizeSites (v : Option PyVal) (default : Sites) : Py Sites :=
  match v with
  | none => .ok default
  | some .none => .ok default
  | some (.str s) =>
    match selectorOf (pyStrip s) with
    | some x => .ok x
    | none => .error .valueError
  | some v =>
    match normalizeIndices v false with
    | .error e => .error e
    | .ok l => .ok (.listed l)

/-- One key of `_normalize_count_constraints`, `local_barrier_model.py:231-239`. -/
def countKey (rule : List (String × PyVal)) (k : String) : Py (Option Int) :=
  match dictGet rule k with
  | none => .ok none
  | some (.int n) => if n < 0 then .error .valueError else .ok (some n)
  | some _ => .error .typeError

/-- `_normalize_count_constraints`, `local_barrier_model.py:229-250`. -/
def normalizeCounts (rule : List (String × PyVal)) : Py CountSpec :=
  match countKey rule "count" with
  | .error e => .error e
  | .ok c =>
    match countKey rule "min_count" with
    | .error e => .error e
    | .ok mn =>
      match countKey rule "max_count" with
      | .error e => .error e
      | .ok mx =>
        if c.isNone && mn.isNone && mx.isNone then .error .valueError
        else if c.isSome && (mn.isSome || mx.isSome) then .error .valueError
        else .ok ⟨c, mn, mx⟩

/-- `_count_matches`, `local_barrier_model.py:253-260`. -/
def countMatches (n : Int) (c : CountSpec) : Bool :=
  if c.count.any (fun k => decide (n ≠ k)) then false
  else if c.minCount.any (fun k => decide (n < k)) then false
  else if c.maxCount.any (fun k => decide (n > k)) then false
  else true

/-- Inner loop of `_normalize_site_species`, `local_barrier_model.py:281-286`. -/
def stateMapOf : List (String × PyVal) → List (Int × String) → Py (List (Int × String))
  | [], acc => .ok acc
  | (k, v) :: rest, acc =>
    match normalizeState (.str k) with
    | .error e => .error e
    | .ok n =>
      match v with
      | .str s => if notBlank s then stateMapOf rest (dictSet acc n s) else .error .valueError
      | _ => .error .valueError

/-- Outer loop of `_normalize_site_species`, `local_barrier_model.py:270-287`.  Dictionary keys
are text, as in a model file. -/
def siteSpeciesOf : List (String × PyVal) → List (Int × List (Int × String)) →
    Py (List (Int × List (Int × String)))
  | [], acc => .ok acc
  | (k, v) :: rest, acc =>
    match parseInt k with
    | none => .error .typeError
    | some i =>
      match v with
      | .dict d =>
        match stateMapOf d [] with
        | .error e => .error e
        | .ok m => siteSpeciesOf rest (dictSet acc i m)
      | _ => .error .typeError

/-- `_normalize_site_species`, `local_barrier_model.py:263-287`. -/
def normalizeSiteSpecies : PyVal → Py (List (Int × List (Int × String)))
  | .none => .ok []
  | .dict d => siteSpeciesOf d []
  | _ => .error .typeError

/-- `_site_species_as_dict`, `local_barrier_model.py:290-297`. -/
def siteSpeciesAsDict (s : List (Int × List (Int × String))) : PyVal :=
  .dict (s.map fun p => (intStr p.1, .dict (p.2.map fun q => (intStr q.1, .str q.2))))

/-- The rule types as text, `local_barrier_model.py:83-89`. -/
inductive RuleType where
  | constant
  | exact
  | pattern
  | stateCount
  | speciesCount
  deriving DecidableEq, Repr

/-- Membership in `RULE_TYPES`, `local_barrier_model.py:316`. -/
def ruleTypeOf : String → Option RuleType
  | "constant" => some .constant
  | "exact" => some .exact
  | "pattern" => some .pattern
  | "state_count" => some .stateCount
  | "species_count" => some .speciesCount
  | _ => none

/-- `k in rule`. -/
def hasKey (d : List (String × PyVal)) (k : String) : Bool := (dictGet d k).isSome

/-- `_coerce_rule_type`, `local_barrier_model.py:300-321`. -/
def coerceType (rule : List (String × PyVal)) : Py RuleType :=
  match (dictGet rule "type").getD .none with
  | .none =>
    if hasKey rule "occupations" && hasKey rule "mobile_ion_indices" then .ok .exact
    else if hasKey rule "pattern" then .ok .pattern
    else if hasKey rule "species" then .ok .speciesCount
    else if hasKey rule "state" || hasKey rule "occupation" then .ok .stateCount
    else .ok .constant
  | .str s =>
    if !notBlank s then .error .valueError
    else
      match ruleTypeOf (pyStrip s) with
      | some t => .ok t
      | none => .error .valueError
  | _ => .error .valueError

/-- `str(rule.get("name") or default_name)`, `local_barrier_model.py:330`.  The text of a name
that is not a string is not modelled. -/
def ruleName (rule : List (String × PyVal)) (default : String) : String :=
  match (dictGet rule "name").getD .none with
  | .str s => if s = "" then default else s
  | _ => default

/-- An optional index list of a rule, `local_barrier_model.py:335-342`. -/
def optIndices (rule : List (String × PyVal)) (k : String) (allowEmpty : Bool) :
    Py (Option (List Int)) :=
  match dictGet rule k with
  | none => .ok none
  | some v =>
    match normalizeIndices v allowEmpty with
    | .error e => .error e
    | .ok l => .ok (some l)

/-- Loop over a list of species, `local_barrier_model.py:384-388`. -/
def speciesOf : List PyVal → Py (List String)
  | [] => .ok []
  | .str s :: rest =>
    if !notBlank s then .error .valueError
    else
      match speciesOf rest with
      | .error e => .error e
      | .ok l => .ok (s :: l)
  | _ :: _ => .error .valueError

/-- The `species` field, `local_barrier_model.py:379-391`. -/
def normalizeSpecies : PyVal → Py (List String)
  | .str s => .ok [s]
  | .list l => if l.isEmpty then .error .valueError else speciesOf l
  | .tuple l => if l.isEmpty then .error .valueError else speciesOf l
  | _ => .error .valueError

/-- The type-specific part of `_normalize_rule`, `local_barrier_model.py:344-392`. -/
def normalizeKind (rule : List (String × PyVal)) : RuleType → Py Kind
  | .constant => .ok .constant
  | .exact =>
    match normalizeIndices ((dictGet rule "mobile_ion_indices").getD .none) false with
    | .error e => .error e
    | .ok mob =>
      match normalizeIndices ((dictGet rule "local_env_indices").getD .none) true with
      | .error e => .error e
      | .ok env =>
        match normalizeOccupations ((dictGet rule "occupations").getD .none) with
        | .error e => .error e
        | .ok occ =>
          if occ.length ≠ (canonicalSites mob env).length then .error .valueError
          else .ok (.exact occ (canonicalSites mob env))
  | .pattern =>
    match normalizeSites (dictGet rule "sites") .canonical with
    | .error e => .error e
    | .ok s =>
      match normalizePattern ((dictGet rule "pattern").getD .none) with
      | .error e => .error e
      | .ok p => .ok (.pattern s p)
  | .stateCount =>
    match normalizeSites (dictGet rule "sites") .localEnv with
    | .error e => .error e
    | .ok s =>
      match (match dictGet rule "occupation" with
        | some v => normalizeState v
        | none => normalizeState ((dictGet rule "state").getD .none)) with
      | .error e => .error e
      | .ok n =>
        match normalizeCounts rule with
        | .error e => .error e
        | .ok c => .ok (.stateCount s n c)
  | .speciesCount =>
    match normalizeSites (dictGet rule "sites") .localEnv with
    | .error e => .error e
    | .ok s =>
      match normalizeSpecies ((dictGet rule "species").getD .none) with
      | .error e => .error e
      | .ok sp =>
        match normalizeCounts rule with
        | .error e => .error e
        | .ok c => .ok (.speciesCount s sp c)

/-- `_normalize_rule`, `local_barrier_model.py:324-393`. -/
def normalizeRule (rule : PyVal) (defaultName : String) : Py Rule :=
  match rule with
  | .dict d =>
    match coerceType d with
    | .error e => .error e
    | .ok t =>
      match propertiesFromRule d with
      | .error e => .error e
      | .ok ps =>
        match optIndices d "mobile_ion_indices" false with
        | .error e => .error e
        | .ok mob =>
          match optIndices d "local_env_indices" true with
          | .error e => .error e
          | .ok env =>
            match normalizeKind d t with
            | .error e => .error e
            | .ok k => .ok ⟨ruleName d defaultName, k, ps, mob, env⟩
  | _ => .error .typeError

/-! ### Serialisation -/

/-- The type name of a rule. -/
def Kind.typeName : Kind → String
  | .constant => "constant"
  | .exact _ _ => "exact"
  | .pattern _ _ => "pattern"
  | .stateCount _ _ _ => "state_count"
  | .speciesCount _ _ _ => "species_count"

/-- The text or list written for `sites`, `local_barrier_model.py:405-407`. -/
def Sites.toVal : Sites → PyVal
  | .canonical => .str "canonical"
  | .localEnv => .str "local_env"
  | .mobileIon => .str "mobile_ion"
  | .fromSite => .str "from"
  | .toSite => .str "to"
  | .all => .str "all"
  | .listed l => .list (l.map .int)

/-- Pattern entries as written. -/
def patternVal : Option Int → PyVal
  | none => .str "*"
  | some n => .int n

/-- A key present only with a value. -/
def optKey (k : String) : Option PyVal → List (String × PyVal)
  | none => []
  | some v => [(k, v)]

/-- The keys of `COUNT_KEYS`, `local_barrier_model.py:413-415`. -/
def countKeys (c : CountSpec) : List (String × PyVal) :=
  optKey "count" (c.count.map .int) ++ optKey "min_count" (c.minCount.map .int) ++
    optKey "max_count" (c.maxCount.map .int)

/-- `species[0] if len(species) == 1 else list(species)`, `local_barrier_model.py:410-412`. -/
def speciesVal : List String → PyVal
  | [s] => .str s
  | l => .list (l.map .str)

/-- `_rule_as_dict`, `local_barrier_model.py:396-416`. -/
def Rule.asDict (r : Rule) : List (String × PyVal) :=
  [("name", .str r.name), ("type", .str r.kind.typeName),
   ("properties", .dict (r.props.map fun p => (p.1, .float p.2)))] ++
  optKey "mobile_ion_indices" (r.mobile.map fun l => .list (l.map .int)) ++
  optKey "local_env_indices" (r.env.map fun l => .list (l.map .int)) ++
  (match r.kind with
   | .constant => []
   | .exact occ _ => [("occupations", .list (occ.map .int))]
   | .pattern s p => [("pattern", .list (p.map patternVal)), ("sites", s.toVal)]
   | .stateCount s n c => [("sites", s.toVal), ("state", .int n)] ++ countKeys c
   | .speciesCount s sp c => [("sites", s.toVal), ("species", speciesVal sp)] ++ countKeys c)

end LocalBarrier

open LocalBarrier

/-- `LocalBarrierModel`, `local_barrier_model.py:419-553`; `exactKeys` is the set
`_exact_rule_keys`. -/
structure LocalBarrierModel where
  name : String
  defaultProperty : String
  probabilityMode : String
  probabilityProperty : String
  siteSpecies : List (Int × List (Int × String))
  defaultProperties : Option Properties
  rules : List Rule
  exactKeys : List (List Int × List Int × List Int)

namespace LocalBarrierModel

/-- `SUPPORTED_PROBABILITY_MODE`, `local_barrier_model.py:518`. -/
def supportedMode : String := "barrier_arrhenius"

/-- `_exact_key_for_rule`, `local_barrier_model.py:654-661`; `none` for other rules. -/
def exactKey (r : Rule) : Option (List Int × List Int × List Int) :=
  match r.kind with
  | .exact occ canonical => some (r.mobile.getD [], canonical, occ)
  | _ => none

/-- `add_rule`, `local_barrier_model.py:663-676`. -/
def addRule (m : LocalBarrierModel) (rule : PyVal) : Py Unit × LocalBarrierModel :=
  match normalizeRule rule ("rule_" ++ intStr m.rules.length) with
  | .error e => (.error e, m)
  | .ok r =>
    match exactKey r with
    | none => (.ok (), { m with rules := m.rules ++ [r] })
    | some k =>
      if k ∈ m.exactKeys then (.error .valueError, m)
      else (.ok (), { m with rules := m.rules ++ [r], exactKeys := m.exactKeys ++ [k] })

/-- The optional keys `barrier` and `name` of the `add_*_rule` methods,
`local_barrier_model.py:699-702` and its copies. -/
def commonKeys (barrier : Option PyVal) (name : Option String) : List (String × PyVal) :=
  optKey "barrier" barrier ++ optKey "name" (name.map .str)

/-- The optional count keys, `local_barrier_model.py:735-740` and `772-777`. -/
def countArgs (count minCount maxCount : Option PyVal) : List (String × PyVal) :=
  optKey "count" count ++ optKey "min_count" minCount ++ optKey "max_count" maxCount

/-- `add_exact_rule`, `local_barrier_model.py:678-704`; the returned name is not modelled. -/
def addExactRule (m : LocalBarrierModel) (mobile env occupations : List PyVal)
    (barrier : Option PyVal) (properties : List (String × PyVal)) (name : Option String) :
    Py Unit × LocalBarrierModel :=
  m.addRule (.dict ([("type", .str "exact"), ("mobile_ion_indices", .list mobile),
    ("local_env_indices", .list env), ("occupations", .list occupations),
    ("properties", .dict properties)] ++ commonKeys barrier name))

/-- `add_state_count_rule`, `local_barrier_model.py:706-742`. -/
def addStateCountRule (m : LocalBarrierModel) (state : PyVal) (barrier : Option PyVal)
    (properties : List (String × PyVal)) (name : Option String) (sites : PyVal)
    (count minCount maxCount : Option PyVal) : Py Unit × LocalBarrierModel :=
  m.addRule (.dict ([("type", .str "state_count"), ("sites", sites), ("state", state),
    ("properties", .dict properties)] ++ commonKeys barrier name ++
    countArgs count minCount maxCount))

/-- `add_species_count_rule`, `local_barrier_model.py:744-779`. -/
def addSpeciesCountRule (m : LocalBarrierModel) (species : PyVal) (barrier : Option PyVal)
    (properties : List (String × PyVal)) (name : Option String) (sites : PyVal)
    (count minCount maxCount : Option PyVal) : Py Unit × LocalBarrierModel :=
  m.addRule (.dict ([("type", .str "species_count"), ("sites", sites), ("species", species),
    ("properties", .dict properties)] ++ commonKeys barrier name ++
    countArgs count minCount maxCount))

/-- `add_pattern_rule`, `local_barrier_model.py:781-804`. -/
def addPatternRule (m : LocalBarrierModel) (pattern : List PyVal) (barrier : Option PyVal)
    (properties : List (String × PyVal)) (name : Option String) (sites : PyVal) :
    Py Unit × LocalBarrierModel :=
  m.addRule (.dict ([("type", .str "pattern"), ("sites", sites), ("pattern", .list pattern),
    ("properties", .dict properties)] ++ commonKeys barrier name))

/-- Loop `for rule in rules: self.add_rule(rule)`, `local_barrier_model.py:840-841`. -/
def addRules (m : LocalBarrierModel) : List PyVal → Py Unit × LocalBarrierModel
  | [] => (.ok (), m)
  | r :: rs =>
    match m.addRule r with
    | (.error e, m') => (.error e, m')
    | (.ok _, m') => m'.addRules rs

/-- `build(rules=...)`, `local_barrier_model.py:806-841`, for the arguments used by `__init__`:
the table is emptied first and refilled rule by rule. -/
def build (m : LocalBarrierModel) (rules : Option PyVal) : Py Unit × LocalBarrierModel :=
  if m.probabilityMode ≠ supportedMode then (.error .valueError, m)
  else
    match rules.getD (.list []) with
    | .list l => ({ m with rules := [], exactKeys := [] }).addRules l
    | _ => (.error .typeError, m)

/-- `__init__`, `local_barrier_model.py:520-553`. -/
def init (rules : Option PyVal) (name : String) (defaultProperties defaultBarrier : Option PyVal)
    (defaultProperty mode property : String) (siteSpecies : PyVal) : Py LocalBarrierModel :=
  match normalizeSiteSpecies siteSpecies with
  | .error e => .error e
  | .ok ss =>
    match optProperties defaultProperties with
    | .error e => .error e
    | .ok dp =>
      match (match defaultBarrier with
        | none => .ok dp
        | some .none => .ok dp
        | some v =>
          match numeric v with
          | .error e => .error e
          | .ok f => .ok (some (setDefault (dp.getD []) "barrier" f)) : Py (Option Properties)) with
      | .error e => .error e
      | .ok dp' =>
        let m : LocalBarrierModel := ⟨name, defaultProperty, mode, property, ss, dp', [], []⟩
        match rules with
        | none => .ok m
        | some .none => .ok m
        | some r =>
          match m.build (some r) with
          | (.error e, _) => .error e
          | (.ok _, m') => .ok m'

/-! ### Matching -/

/-- `_selected_sites`, `local_barrier_model.py:843-864`. -/
def selectedSites (s : Sites) (e : Event) (occ : List Int) : Py (List Int) :=
  match eventIndices e with
  | .error x => .error x
  | .ok (mob, env, canonical) =>
    match s with
    | .listed l => .ok l
    | .canonical => .ok canonical
    | .localEnv => .ok env
    | .mobileIon => .ok mob
    | .fromSite =>
      match pyGet mob 0 with
      | .error x => .error x
      | .ok i => .ok [i]
    | .toSite =>
      match pyGet mob 1 with
      | .error x => .error x
      | .ok i => .ok [i]
    | .all => .ok ((List.range occ.length).map fun (i : Nat) => (i : Int))

/-- `_occupation_pattern`, `local_barrier_model.py:866-874`. -/
def occupationPattern (occ : List Int) : List Int → Py (List Int)
  | [] => .ok []
  | i :: rest =>
    match pyGet occ i with
    | .error e => .error e
    | .ok v =>
      match occupationPattern occ rest with
      | .error e => .error e
      | .ok l => .ok (v :: l)

/-- `_event_constraints_match`, `local_barrier_model.py:876-888`. -/
def eventConstraintsMatch (r : Rule) (e : Event) : Py Bool :=
  match eventIndices e with
  | .error x => .error x
  | .ok (mob, env, _) =>
    if r.mobile.any (fun l => decide (l ≠ mob)) then .ok false
    else if r.env.any (fun l => decide (l ≠ env)) then .ok false
    else .ok true

/-- `_species_for_site`, `local_barrier_model.py:890-902`. -/
def speciesForSite (m : LocalBarrierModel) (site occ : Int) : Py String :=
  match dictGet m.siteSpecies site with
  | none => .error .valueError
  | some states =>
    match dictGet states occ with
    | none => .error .valueError
    | some s => .ok s

/-- The sum `local_barrier_model.py:945-949`. -/
def speciesCountOf (m : LocalBarrierModel) (species : List String) : List (Int × Int) → Py Int
  | [] => .ok 0
  | (site, occ) :: rest =>
    match m.speciesForSite site occ with
    | .error e => .error e
    | .ok s =>
      match m.speciesCountOf species rest with
      | .error e => .error e
      | .ok n => .ok (n + if s ∈ species then 1 else 0)

/-- The comparison of one pattern entry, `local_barrier_model.py:929`. -/
def entryMatches (expected : Option Int) (actual : Int) : Bool :=
  match expected with
  | none => true
  | some n => decide (n = actual)

/-- `_rule_matches`, `local_barrier_model.py:904-954`. -/
def ruleMatches (m : LocalBarrierModel) (r : Rule) (occ : List Int) (e : Event) : Py Bool :=
  match eventConstraintsMatch r e with
  | .error x => .error x
  | .ok false => .ok false
  | .ok true =>
    match r.kind with
    | .constant => .ok true
    | .exact expected canonical =>
      match eventIndices e with
      | .error x => .error x
      | .ok (_, _, sites) =>
        if sites ≠ canonical then .ok false
        else
          match occupationPattern occ sites with
          | .error x => .error x
          | .ok p => .ok (decide (p = expected))
    | .pattern s expected =>
      match selectedSites s e occ with
      | .error x => .error x
      | .ok sites =>
        match occupationPattern occ sites with
        | .error x => .error x
        | .ok p =>
          if p.length ≠ expected.length then .error .valueError
          else .ok ((expected.zip p).all fun q => entryMatches q.1 q.2)
    | .stateCount s state c =>
      match selectedSites s e occ with
      | .error x => .error x
      | .ok sites =>
        match occupationPattern occ sites with
        | .error x => .error x
        | .ok p => .ok (countMatches ((p.filter fun v => v = state).length : Int) c)
    | .speciesCount s species c =>
      match selectedSites s e occ with
      | .error x => .error x
      | .ok sites =>
        match occupationPattern occ sites with
        | .error x => .error x
        | .ok p =>
          match m.speciesCountOf species (sites.zip p) with
          | .error x => .error x
          | .ok n => .ok (countMatches n c)

/-- The loop of `_matched_properties`, `local_barrier_model.py:962-964`; `none` when no rule
matches. -/
def firstMatch (m : LocalBarrierModel) (occ : List Int) (e : Event) :
    List Rule → Py (Option Properties)
  | [] => .ok none
  | r :: rs =>
    match m.ruleMatches r occ e with
    | .error x => .error x
    | .ok true => .ok (some r.props)
    | .ok false => m.firstMatch occ e rs

/-- `_matched_properties`, `local_barrier_model.py:956-979`. -/
def matchedProperties (m : LocalBarrierModel) (occ : List Int) (e : Event) : Py Properties :=
  match m.firstMatch occ e m.rules with
  | .error x => .error x
  | .ok (some p) => .ok p
  | .ok none =>
    match m.defaultProperties with
    | some p => .ok p
    | none =>
      match eventIndices e with
      | .error x => .error x
      | .ok (_, _, sites) =>
        match occupationPattern occ sites with
        | .error x => .error x
        | .ok _ => .error .keyError

/-- `compute`, `local_barrier_model.py:981-996`. -/
def compute (m : LocalBarrierModel) (occ : List Int) (e : Event) (property : String) :
    Py PyFloat :=
  match m.matchedProperties occ e with
  | .error x => .error x
  | .ok ps =>
    match dictGet ps (if property = "" then m.defaultProperty else property) with
    | none => .error .keyError
    | some v => .ok v

/-- `hop_factor * attempt_frequency * np.exp(-barrier / (k_B * temperature))`,
`local_barrier_model.py:1012-1018`, in real arithmetic; `none` is an infinite or NaN result. -/
noncomputable def arrhenius (kB temperature frequency factor : ℝ) : PyFloat → Option ℝ
  | .fin q => some (factor * frequency * Real.exp (-(q : ℝ) / (kB * temperature)))
  | .posInf => some 0
  | .negInf => none
  | .nan => none

/-- `compute_probability`, `local_barrier_model.py:998-1019`, for a given Boltzmann constant,
temperature and attempt frequency. -/
noncomputable def computeProbability (m : LocalBarrierModel) (kB temperature frequency : ℝ)
    (e : Event) (occ : List Int) : Py (Option ℝ) :=
  if m.probabilityMode ≠ supportedMode then .error .valueError
  else
    match m.compute occ e m.probabilityProperty with
    | .error x => .error x
    | .ok barrier =>
      match eventDirection occ e with
      | .error x => .error x
      | .ok d =>
        .ok (arrhenius kB temperature frequency (if d ≠ 0 then 1 else 0) barrier)

/-- The rate model used by the simulator: no cache, `apply_event` does nothing
(`models/base.py:86-110`).  An infinite or NaN rate is outside the real-valued rate table and is
represented by an error. -/
noncomputable def rateModel (m : LocalBarrierModel) (kB temperature frequency : ℝ) :
    RateModel Unit ℝ EReal where
  initializeState := fun _ _ => .ok ()
  computeProbability := fun _ e st =>
    match m.computeProbability kB temperature frequency e st.occ with
    | .error x => .error x
    | .ok (some r) => .ok r
    | .ok none => .error .valueError
  applyEvent := fun _ _ _ => (.ok (), ())

/-- `entry_from_event_state`, `local_barrier_model.py:577-610`; property values are floats.  The
sampling loop of lines 594-601 is that of `_occupation_pattern`. -/
def entryFromEventState (e : Event) (occ : List Int) (properties : List (String × PyVal))
    (name : Option String) : Py PyVal :=
  match eventIndices e with
  | .error x => .error x
  | .ok (mob, env, canonical) =>
    match occupationPattern occ canonical with
    | .error x => .error x
    | .ok occs =>
      .ok (.dict ([("type", .str "exact"), ("mobile_ion_indices", .list (mob.map .int)),
        ("local_env_indices", .list (env.map .int)), ("occupations", .list (occs.map .int)),
        ("properties", .dict properties)] ++ optKey "name" (name.map .str)))

/-! ### Serialisation -/

/-- `default_properties` as written, `local_barrier_model.py:1046-1050`. -/
def propsVal : Option Properties → PyVal
  | some p => .dict (p.map fun q => (q.1, .float q.2))
  | none => .none

/-- `as_dict`, `local_barrier_model.py:1037-1053`. -/
def asDict (m : LocalBarrierModel) : List (String × PyVal) :=
  [("@module", .str "kmcpy.models.local_barrier_model"), ("@class", .str "LocalBarrierModel"),
   ("name", .str m.name), ("default_property", .str m.defaultProperty),
   ("probability_mode", .str m.probabilityMode),
   ("probability_property", .str m.probabilityProperty),
   ("default_properties", propsVal m.defaultProperties),
   ("site_species", siteSpeciesAsDict m.siteSpecies),
   ("rules", .list (m.rules.map fun r => .dict r.asDict))]

/-- A text field of a payload; fields that are not text are not modelled. -/
def textField (d : List (String × PyVal)) (k default : String) : Py String :=
  match dictGet d k with
  | none => .ok default
  | some (.str s) => .ok s
  | some _ => .error .typeError

/-- `from_dict`, `local_barrier_model.py:1062-1080`. -/
def fromDict (data : PyVal) : Py LocalBarrierModel :=
  match data with
  | .dict d =>
    let inner : PyVal :=
      match dictGet d "model_type", dictGet d "local_barrier" with
      | some (.str "local_barrier"), some v => v
      | _, _ => .dict d
    match inner with
    | .dict d =>
      match textField d "name" "LocalBarrierModel" with
      | .error e => .error e
      | .ok name =>
        match textField d "default_property" "barrier" with
        | .error e => .error e
        | .ok dp =>
          match textField d "probability_mode" supportedMode with
          | .error e => .error e
          | .ok mode =>
            match textField d "probability_property" "barrier" with
            | .error e => .error e
            | .ok pp =>
              init (some ((dictGet d "rules").getD (.list []))) name
                (dictGet d "default_properties") (dictGet d "default_barrier") dp mode pp
                ((dictGet d "site_species").getD .none)
    | _ => .error .attributeError
  | _ => .error .valueError

end LocalBarrierModel
end KMC
