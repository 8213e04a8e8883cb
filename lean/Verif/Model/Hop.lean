import Verif.Model.Event
/-
Model of `kmcpy/event/hop.py`.
-/
namespace KMC

/-- `INVALID_STATE`, `hop.py:12`. -/
def invalidState : Int := -1

/-- `DEFAULT_HOP_STATE_CODES`, `hop.py:11`. -/
def defaultHopCodes : HopCodes := ⟨0, 1, 1, 0⟩

/-- `HopStateLookup`, `hop.py:15-20`. -/
structure HopStateLookup where
  mobileStateBySite : List Int
  vacancyStateBySite : List Int
  deriving DecidableEq, Repr

/-- `_is_mobile_label`, `hop.py:92-93`. -/
def isMobileLabel (label mobile : String) : Bool := label == mobile

/-- `_is_vacancy_label`, `hop.py:96-97`. -/
def isVacancyLabel (label : String) : Bool :=
  ["X", "Vacancy", "vacancy", "Va", "VA"].contains label

/-- Inner loop `hop.py:46-50` for one of the two arrays: the last matching state
index wins, `INVALID_STATE` if none matches. -/
def lastMatchingState (p : String → Bool) : Nat → List String → Int → Int
  | _, [], acc => acc
  | i, s :: rest, acc => lastMatchingState p (i + 1) rest (if p s then (i : Int) else acc)

/-- `HopStateLookup.from_active_site_order`, `hop.py:22-52`; `IndexError` when a
primitive index has no allowed-species entry. -/
def HopStateLookup.fromActiveSiteOrder {φ : Type} (o : ActiveSiteOrder String φ)
    (mobile : String) : Py HopStateLookup :=
  let rec go : List Nat → Py HopStateLookup
    | [] => .ok ⟨[], []⟩
    | p :: ps =>
      match o.allowedSpeciesByPrimitiveSite[p]? with
      | none => .error .indexError
      | some allowed =>
        match go ps with
        | .error e => .error e
        | .ok r => .ok
          { mobileStateBySite :=
              lastMatchingState (fun s => isMobileLabel s mobile) 0 allowed invalidState
                :: r.mobileStateBySite
            vacancyStateBySite :=
              lastMatchingState isVacancyLabel 0 allowed invalidState
                :: r.vacancyStateBySite }
  go o.activeToPrimitive

/-- `annotate_event`, `hop.py:54-62`. -/
def HopStateLookup.annotateEvent (h : HopStateLookup) (e : Event) : Py Event :=
  match unpack2 e.mobile with
  | .error x => .error x
  | .ok (f, t) =>
    match pyGet h.mobileStateBySite f, pyGet h.vacancyStateBySite t,
          pyGet h.vacancyStateBySite f, pyGet h.mobileStateBySite t with
    | .ok mf, .ok vt, .ok vf, .ok mt => .ok { e with codes := some ⟨mf, vt, vf, mt⟩ }
    | _, _, _, _ => .error .indexError

/-- `annotate_event_lib`, `hop.py:64-67`. -/
def HopStateLookup.annotateEvents (h : HopStateLookup) : List Event → Py (List Event)
  | [] => .ok []
  | e :: es =>
    match h.annotateEvent e with
    | .error x => .error x
    | .ok e' =>
      match h.annotateEvents es with
      | .error x => .error x
      | .ok es' => .ok (e' :: es')

/-- `endpoint_direction_from_codes`, `hop.py:79-89`. -/
def endpointDirectionFromCodes (fromOcc toOcc : Int) (c : HopCodes) : Int :=
  if fromOcc = c.mobFrom ∧ toOcc = c.vacTo then 1
  else if fromOcc = c.vacFrom ∧ toOcc = c.mobTo then -1
  else 0

/-- `event_direction`, `hop.py:70-76`. -/
def eventDirection (occ : List Int) (e : Event) : Py Int :=
  match unpack2 e.mobile with
  | .error x => .error x
  | .ok (f, t) =>
    match pyGet occ f with
    | .error x => .error x
    | .ok fo =>
      match pyGet occ t with
      | .error x => .error x
      | .ok to' => .ok (endpointDirectionFromCodes fo to' (e.codes.getD defaultHopCodes))

end KMC
