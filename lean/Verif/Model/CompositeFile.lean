import Verif.Model.ModelChoice
/-
Model of how the content of a model file becomes a `CompositeLCEModel`: the checks and the reading of
`kmcpy/models/composite_lce_model.py:244-440` and the envelope of `SiteEnergyModel.from_file`
(`kmcpy/models/site_energy.py:437-441,471-476`).

The content of the file is any value.  What `LocalClusterExpansion` makes of its part (`Model/ModelFile`) and
Python's import system are parameters; so `L` are expansions and `S` other site models.
-/
namespace KMC
namespace CompositeFile
variable {L S Cls : Type}
open ModelChoice

/-- What the parts of a file are read with. -/
structure Loaders (L S Cls : Type) where
  /-- `LocalClusterExpansion.from_dict` -/
  expansion : List (String × PyVal) → Py L
  /-- `set_parameters`, giving the model with its parameters -/
  setParameters : L → List (String × PyVal) → Py L
  /-- `getattr(importlib.import_module(path), name)` -/
  importClass : PyVal → PyVal → Py Cls
  /-- the class's `from_dict`, `none` if there is none that can be called -/
  classFromDict : Cls → Option (List (String × PyVal) → Py S)
  /-- `callable(getattr(model, "compute", None))` -/
  hasCompute : S → Bool

/-- `_validate_submodel_payload`, `composite_lce_model.py:325-344`. -/
def validateSubmodel : PyVal → Py Unit
  | .dict d =>
    match dictGet d "lce" with
    | some (.dict _) =>
      match dictGet d "parameters" with
      | some (.dict p) =>
        if (dictGet p "keci").isNone || (dictGet p "empty_cluster").isNone then .error .valueError
        else .ok ()
      | _ => .error .valueError
    | _ => .error .valueError
  | _ => .error .valueError

/-- `_validate_site_model_payload`, `composite_lce_model.py:346-356`. -/
def validateSite : PyVal → Py Unit
  | .dict d =>
    if (dictGet d "lce").isSome then validateSubmodel (.dict d)
    else
      match dictGet d "model" with
      | some (.dict _) => .ok ()
      | _ => .error .valueError
  | _ => .error .valueError

/-- `_validate_dict`, `composite_lce_model.py:358-367`, with `require_model_type` (`base.py:22-41`). -/
def validateDict : PyVal → Py Unit
  | .dict d =>
    match requireModelType d "composite_lce" with
    | .error e => .error e
    | .ok _ =>
      match dictGet d "kra" with
      | none => .error .valueError
      | some kra =>
        match validateSubmodel kra with
        | .error e => .error e
        | .ok _ =>
          match dictGet d "site" with
          | none => .ok ()
          | some .none => .ok ()
          | some site => validateSite site
  | _ => .error .valueError

/-- The site model of a composite model. -/
inductive Site (L S : Type) where
  | none
  | expansion (m : L)
  | other (s : S)

/-- The attributes of a `CompositeLCEModel`, `composite_lce_model.py:113-117`, set by `from_dict`. -/
structure Loaded (L S : Type) where
  kra : L
  site : Site L S
  kraMetadata : PyVal
  siteMetadata : PyVal

/-- `fit_metadata or {"time_stamp": None, "time": None}`, `composite_lce_model.py:116-117`. -/
def metadataOf (v : Option PyVal) : PyVal :=
  match v with
  | some x => if truthy x then x else .dict [("time_stamp", .none), ("time", .none)]
  | none => .dict [("time_stamp", .none), ("time", .none)]

/-- An entry that is a dictionary after the checks; other values do not get here. -/
def entryDict (d : List (String × PyVal)) (key : String) : Py (List (String × PyVal)) :=
  match dictGet d key with
  | some (.dict x) => .ok x
  | some _ => .error .attributeError
  | none => .error .keyError

/-- The loading of one expansion with its parameters, `composite_lce_model.py:389-391,398-399`. -/
def loadSubmodel (ld : Loaders L S Cls) (d : List (String × PyVal)) : Py L :=
  match entryDict d "lce" with
  | .error e => .error e
  | .ok lce =>
    match ld.expansion lce with
    | .error e => .error e
    | .ok m =>
      match entryDict d "parameters" with
      | .error e => .error e
      | .ok p => ld.setParameters m p

/-- `_site_model_from_dict`, `composite_lce_model.py:411-432`. -/
def loadOther (ld : Loaders L S Cls) (d : List (String × PyVal)) : Py S :=
  match entryDict d "model" with
  | .error e => .error e
  | .ok payload =>
    match dictGet payload "@module", dictGet payload "@class" with
    | some path, some name =>
      if !truthy path || !truthy name then .error .valueError
      else
        match ld.importClass path name with
        | .error e => .error e
        | .ok c =>
          match ld.classFromDict c with
          | none => .error .valueError
          | some f =>
            match f payload with
            | .error e => .error e
            | .ok s => if ld.hasCompute s then .ok s else .error .typeError
    | _, _ => .error .valueError

/-- The site model of the file and its metadata, `composite_lce_model.py:393-402`. -/
def loadSite (ld : Loaders L S Cls) (v : Option PyVal) : Py (Site L S × Option PyVal) :=
  match v with
  | none => .ok (.none, none)
  | some .none => .ok (.none, none)
  | some (.dict d) =>
    if (dictGet d "lce").isSome then
      match loadSubmodel ld d with
      | .error e => .error e
      | .ok m => .ok (.expansion m, dictGet d "fit_metadata")
    else
      match loadOther ld d with
      | .error e => .error e
      | .ok s => .ok (.other s, dictGet d "fit_metadata")
  | some _ => .error .attributeError

/-- `CompositeLCEModel.from_dict`, `composite_lce_model.py:384-409`, and `from_file` (434-440) of the content of
the file. -/
def fromDict (ld : Loaders L S Cls) (v : PyVal) : Py (Loaded L S) :=
  match validateDict v with
  | .error e => .error e
  | .ok _ =>
    match v with
    | .dict d =>
      match entryDict d "kra" with
      | .error e => .error e
      | .ok kra =>
        match loadSubmodel ld kra with
        | .error e => .error e
        | .ok m =>
          match loadSite ld (dictGet d "site") with
          | .error e => .error e
          | .ok (site, siteMeta) =>
            .ok { kra := m, site := site, kraMetadata := metadataOf (dictGet kra "fit_metadata")
                  siteMetadata := metadataOf siteMeta }
    | _ => .error .typeError

/-- `_submodel_as_dict`, `composite_lce_model.py:287-299`, from the dictionary of the expansion and its parameters. -/
def submodelAsDict (lce parameters : List (String × PyVal)) (metadata : PyVal) : List (String × PyVal) :=
  [("lce", .dict lce), ("parameters", .dict parameters), ("fit_metadata", metadata)]

/-- `_site_model_as_dict`, `composite_lce_model.py:301-323`, for a model other than an expansion. -/
def otherAsDict (modelType : PyVal) (model : List (String × PyVal)) (metadata : PyVal) : List (String × PyVal) :=
  [("model_type", modelType), ("model", .dict model), ("fit_metadata", metadata),
   ("delta_convention", .str "after_minus_before"), ("units", .str "meV")]

/-- `as_dict`, `composite_lce_model.py:244-268`; `site` is the dictionary of the site model, if there is one. -/
def asDict (kra : List (String × PyVal)) (site : Option (List (String × PyVal))) : Py PyVal :=
  let d : List (String × PyVal) :=
    [("@module", .str "kmcpy.models.composite_lce_model"), ("@class", .str "CompositeLCEModel"),
     ("filetype", .str fileType), ("model_type", .str "composite_lce"), ("kra", .dict kra)] ++
    match site with
    | none => []
    | some s => [("site", .dict s)]
  match validateDict (.dict d) with
  | .error e => .error e
  | .ok _ => .ok (.dict d)

/-- The dictionary that `SiteEnergyModel.from_dict` reads its keys from, `site_energy.py:437-441`; `data.get` of
something else is an `AttributeError`. -/
def siteEnergyEntries : PyVal → Py (List (String × PyVal))
  | .dict d =>
    match dictGet d "model_type", dictGet d "site_energy" with
    | some (.str t), some p =>
      if t = "site_energy" then
        match p with
        | .dict x => .ok x
        | _ => .error .attributeError
      else .ok d
    | _, _ => .ok d
  | _ => .error .valueError

/-- `SiteEnergyModel.from_file`, `site_energy.py:471-476`, up to the same point. -/
def siteEnergyFile (content : PyVal) : Py (List (String × PyVal)) :=
  match content with
  | .dict d =>
    match dictGet d "filetype" with
    | some (.str t) =>
      if t = fileType then
        match requireModelType d "site_energy" with
        | .error e => .error e
        | .ok _ => siteEnergyEntries ((dictGet d "site_energy").getD .none)
      else siteEnergyEntries (.dict d)
    | _ => siteEnergyEntries (.dict d)
  | v => siteEnergyEntries v

end CompositeFile
end KMC
