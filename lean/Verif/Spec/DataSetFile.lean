import Mathlib.Data.List.Forall2
import Verif.Model.DataSetFile
/-
What a fitting data set must contain after any sequence of calls, as a list of rows without objects and identities.
-/
namespace KMC
namespace Spec
namespace DataSets
open DataSetFile
variable {M R S V α β J E : Type}

/-- One accepted calculation. -/
structure Row (M S V α β J : Type) where
  struct : S
  value : V
  model : M
  occupation : List α
  correlation : List β
  metadata : Metadata J

/-- The model used when a call names none: that of the last accepted calculation, or the one the data set was
created with. -/
def currentModel (model0 : Option M) (rows : List (Row M S V α β J)) : Option M :=
  (rows.getLast?.map Row.model).orElse fun _ => model0

/-- The row a call adds: the structure is found, the value is a number, there is a model, the features can be
computed, and they have the lengths of all rows before. -/
inductive Adds (featurize : M → Option R → S → Py (List α × List β)) (io : Outside M S J) (model0 : Option M)
    (ref0 : Option R) (rows : List (Row M S V α β J)) (q : Request M R S V J) : Row M S V α β J → Prop
  | intro (s : S) (md : Metadata J) (v : V) (m : M) (o : List α) (c : List β)
      (source : loadSource io q.source q.metadata q.kwargs = .ok (s, md)) (value : q.value = .ok v)
      (model : (q.model.orElse fun _ => currentModel model0 rows) = some m)
      (features : featurize m (q.reference.orElse fun _ => ref0) s = .ok (o, c))
      (fits : ∀ r ∈ rows, o.length = r.occupation.length ∧ c.length = r.correlation.length) :
      Adds featurize io model0 ref0 rows q ⟨s, v, m, o, c, md⟩

/-- The rows after adding structures one after the other until one of them is refused. -/
inductive AddsMany (featurize : M → Option R → S → Py (List α × List β)) (io : Outside M S J) (model0 : Option M)
    (ref0 : Option R) : List (Row M S V α β J) → List (Request M R S V J) → List (Row M S V α β J) → Prop
  | done (rows) : AddsMany featurize io model0 ref0 rows [] rows
  | refused (rows q rest) (h : ∀ r, ¬ Adds featurize io model0 ref0 rows q r) :
      AddsMany featurize io model0 ref0 rows (q :: rest) rows
  | next (rows q rest r rows') (h : Adds featurize io model0 ref0 rows q r)
      (t : AddsMany featurize io model0 ref0 (rows ++ [r]) rest rows') :
      AddsMany featurize io model0 ref0 rows (q :: rest) rows'

/-- A call of the interface. -/
inductive Call (M R S V J : Type) where
  | one (q : Request M R S V J)
  | many (b : Batch M R S V J)

/-- The sequences given to one call have one length. -/
def Fits (b : Batch M R S V J) : Prop :=
  b.values.length = b.sources.length ∧ ∀ l, b.metadata = some l → l.length = b.sources.length

/-- The rows after any sequence of calls, whatever their outcomes. -/
inductive Holds (featurize : M → Option R → S → Py (List α × List β)) (io : Outside M S J) (model0 : Option M)
    (ref0 : Option R) : List (Call M R S V J) → List (Row M S V α β J) → Prop
  | start : Holds featurize io model0 ref0 [] []
  | one (calls rows q rows') (h : Holds featurize io model0 ref0 calls rows)
      (t : AddsMany featurize io model0 ref0 rows [q] rows') :
      Holds featurize io model0 ref0 (calls ++ [.one q]) rows'
  | many (calls rows b rows') (h : Holds featurize io model0 ref0 calls rows) (hb : Fits b)
      (t : AddsMany featurize io model0 ref0 rows b.requests rows') :
      Holds featurize io model0 ref0 (calls ++ [.many b]) rows'
  | mismatch (calls rows b) (h : Holds featurize io model0 ref0 calls rows) (hb : ¬ Fits b) :
      Holds featurize io model0 ref0 (calls ++ [.many b]) rows

/-- The data set after any sequence of calls. -/
def dataSetAfter (featurize : M → Option R → S → Py (List α × List β)) (io : Outside M S J)
    (D : DataSet M R S V α β J) (calls : List (Call M R S V J)) : DataSet M R S V α β J :=
  calls.foldl (fun D c =>
    match c with
    | .one q => (addStructure featurize io D q).2
    | .many b => (addStructures featurize io D b).2) D

/-- A value of the metadata can be written. -/
def Writable (encode : J → Py E) (d : Metadata J) : Prop := ∀ kv ∈ d, ∃ x, encode kv.2 = .ok x

/-- Two dictionaries with the same keys and corresponding values. -/
def SameDict (encode : J → Py E) (d : Metadata J) (d' : Metadata E) : Prop :=
  List.Forall₂ (fun a b => a.1 = b.1 ∧ encode a.2 = .ok b.2) d d'

end DataSets
end Spec
end KMC
