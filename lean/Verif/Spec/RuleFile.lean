import Verif.Model.LocalBarrier
/-
What a rule of a local barrier model, written as a dictionary, says.
-/
namespace KMC.Spec
open KMC KMC.LocalBarrier

/-- `t` is `s` without the blanks around it. -/
def Trims (s t : String) : Prop :=
  ∃ a b : List Char, s.toList = a ++ t.toList ++ b ∧ (∀ c ∈ a, c.isWhitespace = true) ∧
    (∀ c ∈ b, c.isWhitespace = true) ∧ (∀ c, t.toList.head? = some c → c.isWhitespace = false) ∧
    ∀ c, t.toList.getLast? = some c → c.isWhitespace = false

/-- Some character is not a blank. -/
def HasInk (s : String) : Prop := ∃ c ∈ s.toList, c.isWhitespace = false

/-- The characters are decimal digits, at least one, and stand for `n`. -/
def Decimal (cs : List Char) (n : Nat) : Prop :=
  cs ≠ [] ∧ (∀ c ∈ cs, '0'.toNat ≤ c.toNat ∧ c.toNat ≤ '9'.toNat) ∧
    n = cs.foldl (fun a c => 10 * a + (c.toNat - '0'.toNat)) 0

/-- The text is a whole number: blanks, a sign or none, digits, blanks. -/
def WholeText (s : String) (n : Int) : Prop :=
  ∃ t ds k, Trims s t ∧ Decimal ds k ∧
    ((t.toList = ds ∧ n = k) ∨ (t.toList = '+' :: ds ∧ n = k) ∨ (t.toList = '-' :: ds ∧ n = -(k : Int)))

/-- The text names a state: one of the words, in capital or small letters, or a number that is not negative. -/
def StateText (s : String) (n : Int) : Prop :=
  ∃ t w, Trims s t ∧ w.toList = t.toList.map Char.toLower ∧
    ((w ∈ ["occupied", "match", "template"] ∧ n = 0) ∨
      (w ∈ ["vacant", "vacancy", "mismatch", "other"] ∧ n = 1) ∨ (0 ≤ n ∧ WholeText w n))

/-- The value names a state. -/
def StateVal (v : PyVal) (n : Int) : Prop := (v = .int n ∧ 0 ≤ n) ∨ ∃ s, v = .str s ∧ StateText s n

/-- The value is a place of a pattern: a star, which any state fits, or a state. -/
def PlaceVal (v : PyVal) (o : Option Int) : Prop :=
  (o = none ∧ ∃ s, v = .str s ∧ Trims s "*") ∨ ∃ n, o = some n ∧ StateVal v n

/-- A list or tuple. -/
def Sequence (v : PyVal) (l : List PyVal) : Prop := v = .list l ∨ v = .tuple l

/-- A list or tuple of integers (not truth values). -/
def IntSequence (v : PyVal) (l : List Int) : Prop := Sequence v (l.map .int)

/-- A number (not a truth value). -/
def NumberVal (v : PyVal) (f : PyFloat) : Prop := (∃ n : Int, v = .int n ∧ f = .fin n) ∨ v = .float f

/-- A dictionary entry. -/
abbrev HasEntry (d : List (String × PyVal)) (k : String) (v : PyVal) : Prop := dictGet d k = some v

/-- The properties of a rule, before they are checked: those under `properties`, and `barrier` unless there is one
among them already. -/
def PropertiesGiven (d given : List (String × PyVal)) : Prop :=
  ∃ base, ((dictGet d "properties" = none ∧ base = []) ∨ HasEntry d "properties" (.dict base)) ∧
    ((dictGet d "barrier" = none ∧ given = base) ∨
      ∃ b f, HasEntry d "barrier" b ∧ NumberVal b f ∧
        (((∃ v, HasEntry base "barrier" v) ∧ given = base) ∨
          (dictGet base "barrier" = none ∧ given = base ++ [("barrier", .float f)])))

/-- The properties of a rule: at least one, all with names that are not blank, and all numbers. -/
def PropertiesMean (d : List (String × PyVal)) (ps : Properties) : Prop :=
  ∃ given, PropertiesGiven d given ∧ given ≠ [] ∧
    List.Forall₂ (fun g p => g.1 = p.1 ∧ HasInk g.1 ∧ NumberVal g.2 p.2) given ps

/-- The names of the rule types. -/
def typeText : RuleType → String
  | .constant => "constant"
  | .exact => "exact"
  | .pattern => "pattern"
  | .stateCount => "state_count"
  | .speciesCount => "species_count"

/-- The type of a rule that does not name its type, from the keys it has. -/
def TypeFromKeys (d : List (String × PyVal)) (t : RuleType) : Prop :=
  let has (k : String) : Prop := ∃ v, HasEntry d k v
  let isExact := has "occupations" ∧ has "mobile_ion_indices"
  match t with
  | .exact => isExact
  | .pattern => ¬isExact ∧ has "pattern"
  | .speciesCount => ¬isExact ∧ ¬has "pattern" ∧ has "species"
  | .stateCount => ¬isExact ∧ ¬has "pattern" ∧ ¬has "species" ∧ (has "state" ∨ has "occupation")
  | .constant => ¬isExact ∧ ¬has "pattern" ∧ ¬has "species" ∧ ¬has "state" ∧ ¬has "occupation"

/-- The type of a rule. -/
def TypeMeans (d : List (String × PyVal)) (t : RuleType) : Prop :=
  (∃ s, HasEntry d "type" (.str s) ∧ Trims s (typeText t)) ∨
    ((dictGet d "type" = none ∨ HasEntry d "type" .none) ∧ TypeFromKeys d t)

/-- The words that select sites. -/
def selectorWords : List (String × Sites) :=
  [("canonical", .canonical), ("local_env", .localEnv), ("mobile_ion", .mobileIon), ("from", .fromSite),
    ("to", .toSite), ("all", .all)]

/-- The sites of a rule: those it names or lists, or else `default`. -/
def SitesMean (d : List (String × PyVal)) (default s : Sites) : Prop :=
  ((dictGet d "sites" = none ∨ HasEntry d "sites" .none) ∧ s = default) ∨
    (∃ x t, HasEntry d "sites" (.str x) ∧ Trims x t ∧ (t, s) ∈ selectorWords) ∨
    ∃ v l, HasEntry d "sites" v ∧ IntSequence v l ∧ l ≠ [] ∧ s = .listed l

/-- One bound of a count. -/
def BoundMeans (d : List (String × PyVal)) (k : String) (o : Option Int) : Prop :=
  (dictGet d k = none ∧ o = none) ∨ ∃ n, HasEntry d k (.int n) ∧ 0 ≤ n ∧ o = some n

/-- The bounds of a count: an exact number, or a least or greatest number or both. -/
def CountsMean (d : List (String × PyVal)) (c : CountSpec) : Prop :=
  BoundMeans d "count" c.count ∧ BoundMeans d "min_count" c.minCount ∧ BoundMeans d "max_count" c.maxCount ∧
    ((c.count ≠ none ∧ c.minCount = none ∧ c.maxCount = none) ∨
      (c.count = none ∧ (c.minCount ≠ none ∨ c.maxCount ≠ none)))

/-- The species that are counted: one text, or a list of texts none of which is blank. -/
def SpeciesMean (d : List (String × PyVal)) (l : List String) : Prop :=
  (∃ s, HasEntry d "species" (.str s) ∧ l = [s]) ∨
    ∃ v, HasEntry d "species" v ∧ Sequence v (l.map .str) ∧ l ≠ [] ∧ ∀ s ∈ l, HasInk s

/-- What a rule of type `t` asks of a configuration. -/
def KindMeans (d : List (String × PyVal)) : RuleType → Kind → Prop
  | .constant, k => k = .constant
  | .exact, k => ∃ vm ve vo mob env vals occ, HasEntry d "mobile_ion_indices" vm ∧ IntSequence vm mob ∧ mob ≠ [] ∧
      HasEntry d "local_env_indices" ve ∧ IntSequence ve env ∧ HasEntry d "occupations" vo ∧ Sequence vo vals ∧
      List.Forall₂ StateVal vals occ ∧ occ.length = (mob ++ env).eraseDups.length ∧
      k = .exact occ (mob ++ env).eraseDups
  | .pattern, k => ∃ s v vals p, SitesMean d .canonical s ∧ HasEntry d "pattern" v ∧ Sequence v vals ∧ vals ≠ [] ∧
      List.Forall₂ PlaceVal vals p ∧ k = .pattern s p
  | .stateCount, k => ∃ s v n c, SitesMean d .localEnv s ∧
      (HasEntry d "occupation" v ∨ (dictGet d "occupation" = none ∧ HasEntry d "state" v)) ∧ StateVal v n ∧
      CountsMean d c ∧ k = .stateCount s n c
  | .speciesCount, k => ∃ s names c, SitesMean d .localEnv s ∧ SpeciesMean d names ∧ CountsMean d c ∧
      k = .speciesCount s names c

/-- The sites of the hops a rule is restricted to, if any. -/
def RestrictionMeans (d : List (String × PyVal)) (k : String) (mayBeEmpty : Prop) (o : Option (List Int)) : Prop :=
  (dictGet d k = none ∧ o = none) ∨
    ∃ v l, HasEntry d k v ∧ IntSequence v l ∧ (l = [] → mayBeEmpty) ∧ o = some l

/-- The name of a rule: its own unless that is empty, else `default`. -/
def NameMeans (d : List (String × PyVal)) (default name : String) : Prop :=
  (HasEntry d "name" (.str name) ∧ name ≠ "") ∨
    ((dictGet d "name" = none ∨ HasEntry d "name" .none ∨ HasEntry d "name" (.str "")) ∧ name = default)

/-- What the dictionary says as a rule. -/
def RuleMeans (d : List (String × PyVal)) (default : String) (r : Rule) : Prop :=
  NameMeans d default r.name ∧ PropertiesMean d r.props ∧
    RestrictionMeans d "mobile_ion_indices" False r.mobile ∧ RestrictionMeans d "local_env_indices" True r.env ∧
    ∃ t, TypeMeans d t ∧ KindMeans d t r.kind

/-- `v` is the value of the last entry for `k`. -/
def LastFor {α β : Type} (l : List (α × β)) (k : α) (v : β) : Prop :=
  ∃ a b, l = a ++ (k, v) :: b ∧ ∀ p ∈ b, p.1 ≠ k

/-- What a table from states to species says: if two keys name the same state, the later one counts. -/
def StatesMean (d : List (String × PyVal)) (m : List (Int × String)) : Prop :=
  ∃ entries : List (Int × String),
    List.Forall₂ (fun g q => StateText g.1 q.1 ∧ g.2 = .str q.2 ∧ HasInk q.2) d entries ∧
    ∀ n s, dictGet m n = some s ↔ LastFor entries n s

/-- What a table from sites to such tables says. -/
def TableMeans (d : List (String × PyVal)) (t : List (Int × List (Int × String))) : Prop :=
  ∃ entries : List (Int × List (Int × String)),
    List.Forall₂ (fun g q => WholeText g.1 q.1 ∧ ∃ e, g.2 = .dict e ∧ StatesMean e q.2) d entries ∧
    ∀ i m, dictGet t i = some m ↔ LastFor entries i m

/-- The dictionary is of the form the model covers: a name is a text, and the properties are a dictionary. -/
def Covered (d : List (String × PyVal)) : Prop :=
  (∀ v, HasEntry d "name" v → v = .none ∨ ∃ s, v = .str s) ∧ ∀ v, HasEntry d "properties" v → ∃ b, v = .dict b

end KMC.Spec
