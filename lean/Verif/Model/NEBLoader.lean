import Mathlib.Logic.Function.Basic
import Verif.Model.Py
/-
Model of `kmcpy/io/neb/data.py`: the data set of a fit.  Entries are mutable objects, so they live
in a heap and the loader stores their identities.  Featurising a structure
(`LocalClusterExpansion.get_occ_corr_from_structure`, modelled in `Model/Features` and `Model/LCE`)
is the parameter `featurize`; the tolerances are part of the reference.  Model and reference objects
are truthy, so `a or b` is `b` only if `a` is `None`.  `exclude_species` is never given.
-/
namespace KMC
namespace NEBLoader

/-- `NEBEntry`, `data.py:54-69`, without metadata; `α` and `β` are the types of occupation and
correlation values. -/
structure Entry (S V α β : Type) where
  struct : S
  value : V
  occupation : Option (List α)
  correlation : Option (List β)
  deriving DecidableEq

/-- `NEBDataLoader`, `data.py:144-172`, with the heap its entries live in: `heap` holds the entry
object of each identity below `next`, `entries` the identities stored in the loader. -/
structure Loader (M R S V α β : Type) where
  heap : Nat → Option (Entry S V α β)
  next : Nat
  entries : List Nat
  model : Option M
  reference : Option R

variable {M R S V α β : Type}

/-- `NEBDataLoader(model, reference)`, `data.py:155-172`. -/
def empty (model : Option M) (reference : Option R) : Loader M R S V α β where
  heap := fun _ => none
  next := 0
  entries := []
  model := model
  reference := reference

/-- `NEBEntry.from_structure`, `data.py:71-102`: a new object with no vectors. -/
def newEntry (L : Loader M R S V α β) (s : S) (v : V) : Nat × Loader M R S V α β :=
  (L.next, { L with
    heap := Function.update L.heap L.next (some ⟨s, v, none, none⟩)
    next := L.next + 1 })

/-- `len(entry.occupation)` and `len(entry.correlation)` of a stored entry; `len(None)` is a
`TypeError`. -/
def lengths (L : Loader M R S V α β) (id : Nat) : Py (Nat × Nat) :=
  match L.heap id with
  | none => .error .typeError
  | some e =>
    match e.occupation, e.correlation with
    | some o, some c => .ok (o.length, c.length)
    | _, _ => .error .typeError

/-- The consistency check `data.py:235-239` against the first stored entry. -/
def checkFirst (L : Loader M R S V α β) (o : List α) (c : List β) : Py Unit :=
  match L.entries with
  | [] => .ok ()
  | first :: _ =>
    match lengths L first with
    | .error e => .error e
    | .ok (m, n) =>
      if o.length ≠ m then .error .valueError
      else if c.length ≠ n then .error .valueError
      else .ok ()

/-- `compute_occ_corr` stores the vectors in the entry object, `data.py:130-136`. -/
def withVectors (L : Loader M R S V α β) (id : Nat) (e : Entry S V α β) (o : List α) (c : List β) :
    Loader M R S V α β :=
  { L with heap := Function.update L.heap id (some ⟨e.struct, e.value, some o, some c⟩) }

/-- Storing an accepted entry, `data.py:241-243`. -/
def accept (L : Loader M R S V α β) (id : Nat) (m : M) : Loader M R S V α β :=
  { L with
    entries := L.entries ++ [id]
    model := some m }

/-- `NEBDataLoader.add`, `data.py:186-244`: the outcome and the loader afterwards.  The entry object
is given its vectors before the check. -/
def add (featurize : M → Option R → S → Py (List α × List β)) (L : Loader M R S V α β) (id : Nat)
    (model : Option M) (reference : Option R) : Py Unit × Loader M R S V α β :=
  match L.heap id with
  | none => (.error .valueError, L)
  | some entry =>
    match model.orElse fun _ => L.model with
    | none => (.error .valueError, L)
    | some m =>
      match featurize m (reference.orElse fun _ => L.reference) entry.struct with
      | .error e => (.error e, L)
      | .ok (o, c) =>
        match checkFirst (withVectors L id entry o c) o c with
        | .error e => (.error e, withVectors L id entry o c)
        | .ok () => (.ok (), accept (withVectors L id entry o c) id m)

/-- `add_structure`, `data.py:246-292`; reading a structure file may fail. -/
def addStructure (featurize : M → Option R → S → Py (List α × List β)) (L : Loader M R S V α β)
    (source : Py S) (v : V) (model : Option M) (reference : Option R) : Py Unit × Loader M R S V α β :=
  match source with
  | .error e => (.error e, L)
  | .ok s => add featurize (newEntry L s v).2 (newEntry L s v).1 model reference

/-- The loop `data.py:327-341`. -/
def addEach (featurize : M → Option R → S → Py (List α × List β)) (model : Option M) (reference : Option R) :
    Loader M R S V α β → List (Py S × V) → Py Unit × Loader M R S V α β
  | L, [] => (.ok (), L)
  | L, (s, v) :: rest =>
    match addStructure featurize L s v model reference with
    | (.error e, L') => (.error e, L')
    | (.ok (), L') => addEach featurize model reference L' rest

/-- `add_structures`, `data.py:294-341`. -/
def addStructures (featurize : M → Option R → S → Py (List α × List β)) (L : Loader M R S V α β)
    (sources : List (Py S)) (values : List V) (model : Option M) (reference : Option R) :
    Py Unit × Loader M R S V α β :=
  if sources.length ≠ values.length then (.error .valueError, L)
  else addEach featurize model reference L (sources.zip values)

/-- `from_structures`, `data.py:343-389`. -/
def fromStructures (featurize : M → Option R → S → Py (List α × List β)) (sources : List (Py S))
    (values : List V) (model : M) (reference : Option R) : Py (Loader M R S V α β) :=
  match addStructures featurize (empty (some model) reference) sources values none none with
  | (.error e, _) => .error e
  | (.ok (), L) => .ok L

/-- `np.array(rows)` of a list of vectors: ragged rows and missing vectors are refused. -/
def toMatrix {γ : Type} : List (Option (List γ)) → Py (List (List γ))
  | [] => .ok []
  | none :: _ => .error .valueError
  | some r :: rest =>
    match toMatrix rest with
    | .error e => .error e
    | .ok m => if m.all fun r' => r'.length = r.length then .ok (r :: m) else .error .valueError

/-- The stored entries. -/
def stored (L : Loader M R S V α β) : List (Entry S V α β) := L.entries.filterMap L.heap

/-- `get_correlation_matrix`, `data.py:391-395`. -/
def correlationMatrix (L : Loader M R S V α β) : Py (List (List β)) :=
  if L.entries = [] then .error .valueError else toMatrix ((stored L).map Entry.correlation)

/-- `get_occupation_matrix`, `data.py:397-401`. -/
def occupationMatrix (L : Loader M R S V α β) : Py (List (List α)) :=
  if L.entries = [] then .error .valueError else toMatrix ((stored L).map Entry.occupation)

/-- `get_properties`, `data.py:403-407`. -/
def properties (L : Loader M R S V α β) : Py (List V) :=
  if L.entries = [] then .error .valueError else .ok ((stored L).map Entry.value)

/-- A `weight` argument: a scalar or a sequence. -/
inductive Weight (W : Type) where
  | scalar (w : W)
  | perEntry (l : List W)

/-- `_as_weight_array`, `data.py:441-450`. -/
def weights {W : Type} : Weight W → Nat → Py (List W)
  | .scalar w, n => .ok (List.replicate n w)
  | .perEntry l, n => if l.length = n then .ok l else .error .valueError

/-- The three files of `write_fitting_inputs` (`data.py:452-497`) by content; what a failure
leaves behind is in `Model/FitFiles`. -/
structure FitInputs (β V W : Type) where
  correlation : List (List β)
  ekra : List V
  weight : List W

/-- `write_fitting_inputs`, `data.py:452-497`. -/
def fittingInputs {W : Type} (L : Loader M R S V α β) (w : Weight W) : Py (FitInputs β V W) :=
  if L.entries = [] then .error .valueError
  else
    match correlationMatrix L with
    | .error e => .error e
    | .ok c =>
      match properties L with
      | .error e => .error e
      | .ok y =>
        match weights w L.entries.length with
        | .error e => .error e
        | .ok ws => .ok ⟨c, y, ws⟩

end NEBLoader
end KMC
