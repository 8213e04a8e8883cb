import Verif.Model.NEBLoader
/-
Model of the parts of `kmcpy/io/neb/data.py` that `Model/NEBLoader` leaves out: reading structures from files, the
metadata of the entries, the name of the model and the file written by `NEBDataLoader.to`.  Metadata are dictionaries
with text keys; their values are an abstract type `J`, and `encode` is what `json.dump` makes of one value.
`NEBEntry` objects are made by `add_structure` and `add_structures` only (re-adding objects is the subject of C54).
Structure numbers in files are exact: `json` writes floats so that they are read back unchanged.
-/
namespace KMC
namespace DataSetFile
open NEBLoader
variable {M R S V α β J E : Type}

/-- A structure argument, `data.py:25`: an object, a path or anything else. -/
inductive Source (S : Type) where
  | object (s : S)
  | path (p : String)
  | other

/-- Metadata of one entry. -/
abbrev Metadata (J : Type) := List (String × J)

/-- What the loader needs from outside: `Structure.from_file(path, **kwargs)`, `str(Path(p))`, a text as a Python
value, and `getattr(model, "name", …)`. -/
structure Outside (M S J : Type) where
  read : String → Metadata J → Py S
  pathText : String → String
  text : String → J
  name : M → Option String

/-- `dict.setdefault`, `data.py:45`. -/
def withDefault (d : Metadata J) (k : String) (v : J) : Metadata J :=
  if (dictGet d k).isSome then d else d ++ [(k, v)]

/-- `_load_structure_source`, `data.py:28-51`. -/
def loadSource (io : Outside M S J) (source : Source S) (metadata : Option (Metadata J)) (kwargs : Metadata J) :
    Py (S × Metadata J) :=
  match source with
  | .object s => if kwargs ≠ [] then .error .valueError else .ok (s, metadata.getD [])
  | .path p =>
    match io.read (io.pathText p) kwargs with
    | .error e => .error e
    | .ok s => .ok (s, withDefault (metadata.getD []) "structure_file" (io.text (io.pathText p)))
  | .other => .error .typeError

/-- A loader with the metadata of its entry objects and the attribute `model_name`, `data.py:155-172`. -/
structure DataSet (M R S V α β J : Type) where
  loader : Loader M R S V α β
  metadata : Nat → Option (Metadata J)
  name : Option String

/-- `NEBDataLoader(model, reference)`, `data.py:155-172`: without a model there is no `model_name`. -/
def create (io : Outside M S J) (model : Option M) (reference : Option R) : DataSet M R S V α β J where
  loader := empty model reference
  metadata := fun _ => none
  name := model.map fun m => (io.name m).getD "unknown"

/-- The arguments of `add_structure`, `data.py:246-257`; `value` is `float(property_value)`. -/
structure Request (M R S V J : Type) where
  source : Source S
  value : Py V
  model : Option M
  metadata : Option (Metadata J)
  reference : Option R
  kwargs : Metadata J

/-- `NEBEntry.from_structure`, `data.py:71-102`: a new object with its metadata. -/
def newEntry (D : DataSet M R S V α β J) (s : S) (v : V) (md : Metadata J) : Nat × DataSet M R S V α β J :=
  ((NEBLoader.newEntry D.loader s v).1,
    { D with
      loader := (NEBLoader.newEntry D.loader s v).2
      metadata := Function.update D.metadata (NEBLoader.newEntry D.loader s v).1 (some md) })

/-- `add`, `data.py:186-244`, with the name of the model stored in line 243. -/
def add (featurize : M → Option R → S → Py (List α × List β)) (io : Outside M S J) (D : DataSet M R S V α β J)
    (id : Nat) (model : Option M) (reference : Option R) : Py Unit × DataSet M R S V α β J :=
  match NEBLoader.add featurize D.loader id model reference with
  | (.error e, L) => (.error e, { D with loader := L })
  | (.ok (), L) =>
    (.ok (), { D with loader := L, name := L.model.map fun m => (io.name m).getD "unknown" })

/-- `add_structure`, `data.py:246-292`. -/
def addStructure (featurize : M → Option R → S → Py (List α × List β)) (io : Outside M S J)
    (D : DataSet M R S V α β J) (q : Request M R S V J) : Py Unit × DataSet M R S V α β J :=
  match loadSource io q.source q.metadata q.kwargs with
  | .error e => (.error e, D)
  | .ok (s, md) =>
    match q.value with
    | .error e => (.error e, D)
    | .ok v => add featurize io (newEntry D s v md).2 (newEntry D s v md).1 q.model q.reference

/-- The loop `data.py:327-341` over the requests it makes. -/
def addEach (featurize : M → Option R → S → Py (List α × List β)) (io : Outside M S J) :
    DataSet M R S V α β J → List (Request M R S V J) → Py Unit × DataSet M R S V α β J
  | D, [] => (.ok (), D)
  | D, q :: rest =>
    match addStructure featurize io D q with
    | (.error e, D') => (.error e, D')
    | (.ok (), D') => addEach featurize io D' rest

/-- The arguments of `add_structures`, `data.py:294-305`. -/
structure Batch (M R S V J : Type) where
  sources : List (Source S)
  values : List (Py V)
  model : Option M
  metadata : Option (List (Option (Metadata J)))
  reference : Option R
  kwargs : Metadata J

/-- The calls made by the loop, `data.py:327-341`: `metadata[index]` for the pair number `index`. -/
def Batch.requests (b : Batch M R S V J) : List (Request M R S V J) :=
  (b.sources.zip b.values).zipIdx.map fun p =>
    { source := p.1.1
      value := p.1.2
      model := b.model
      metadata := (b.metadata.bind fun l => l[p.2]?).getD none
      reference := b.reference
      kwargs := b.kwargs }

/-- `add_structures`, `data.py:294-341`. -/
def addStructures (featurize : M → Option R → S → Py (List α × List β)) (io : Outside M S J)
    (D : DataSet M R S V α β J) (b : Batch M R S V J) : Py Unit × DataSet M R S V α β J :=
  if b.sources.length ≠ b.values.length then (.error .valueError, D)
  else if (b.metadata.map List.length).getD b.sources.length ≠ b.sources.length then (.error .valueError, D)
  else addEach featurize io D b.requests

/-! ### The file -/

/-- The dictionary that is written, `data.py:425-432`. -/
structure Document (V α β E : Type) where
  correlation : List (List β)
  occupation : List (List α)
  properties : List V
  metadata : List (Metadata E)
  count : Nat
  modelName : String
  deriving DecidableEq

/-- What a file may hold: a complete document of this kind, the beginning of one, or anything else. -/
inductive Content (V α β E : Type) where
  | complete (d : Document V α β E)
  | torn
  | foreign (t : String)
  deriving DecidableEq

/-- Files by path. -/
abbrev Disk (V α β E : Type) := String → Option (Content V α β E)

/-- The disk after one file has been written. -/
def Disk.put (disk : Disk V α β E) (path : String) (c : Content V α β E) : Disk V α β E :=
  fun p => if p = path then some c else disk p

/-- The metadata of all entries, `data.py:429`. -/
def metadataList (D : DataSet M R S V α β J) : List (Metadata J) :=
  D.loader.entries.map fun id => (D.metadata id).getD []

/-- What `json.dump` writes for one dictionary; the first value it cannot write raises. -/
def encodeDict (encode : J → Py E) : Metadata J → Py (Metadata E)
  | [] => .ok []
  | (k, v) :: rest =>
    match encode v with
    | .error e => .error e
    | .ok x =>
      match encodeDict encode rest with
      | .error e => .error e
      | .ok l => .ok ((k, x) :: l)

/-- What `json.dump` writes for the list of dictionaries. -/
def encodeAll (encode : J → Py E) : List (Metadata J) → Py (List (Metadata E))
  | [] => .ok []
  | d :: rest =>
    match encodeDict encode d with
    | .error e => .error e
    | .ok x =>
      match encodeAll encode rest with
      | .error e => .error e
      | .ok l => .ok (x :: l)

/-- `NEBDataLoader.to`, `data.py:409-439`: the outcome and the disks that exist one after the other while it runs.
All matrices are made before the file is opened.  `json.dump` writes the matrices before the metadata, so that an
error in the metadata leaves the beginning of a document.  (Making the folder is assumed to succeed; `join` is
`os.path.join`.) -/
def saveSteps (encode : J → Py E) (join : String → String → String) (D : DataSet M R S V α β J)
    (disk : Disk V α β E) (dir pre : String) : Py String × List (Disk V α β E) :=
  if D.loader.entries = [] then (.error .valueError, [])
  else
    match correlationMatrix D.loader with
    | .error e => (.error e, [])
    | .ok c =>
      match occupationMatrix D.loader with
      | .error e => (.error e, [])
      | .ok o =>
        match properties D.loader with
        | .error e => (.error e, [])
        | .ok v =>
          match encodeAll encode (metadataList D) with
          | .error e => (.error e, [disk.put (join dir (pre ++ ".json")) .torn])
          | .ok md =>
            (.ok (join dir (pre ++ ".json")),
              [disk.put (join dir (pre ++ ".json")) .torn,
                disk.put (join dir (pre ++ ".json")) (.complete
                  ⟨c, o, v, md, D.loader.entries.length, D.name.getD "unknown"⟩)])

/-- The disk when `to` has returned or raised. -/
def save (encode : J → Py E) (join : String → String → String) (D : DataSet M R S V α β J)
    (disk : Disk V α β E) (dir pre : String) : Py String × Disk V α β E :=
  ((saveSteps encode join D disk dir pre).1, (saveSteps encode join D disk dir pre).2.getLast?.getD disk)

end DataSetFile
end KMC
