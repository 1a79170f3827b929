import Verif.Model.UserTools
/-
Tracking of retrieved array elements (`TrackingDict` and `TrackingList`, debugging_utils.py:226-416).

Simplified: only reading is modelled, not the assignment and deletion of entries, and no negative list indices.
-/
namespace Verif

/-- state of a tracking object: the integer keys retrieved, and the tracking objects for entries.  (The tracking objects
of a `TrackingList` for its elements are never asked, line 402 looks at the elements themselves.) -/
inductive Trk where
  | node (acc : List PKey) (subs : List (PKey × Trk))
  | lst (acc : List Nat)

/-- debugging_utils.py:281-287 `_create_trackobj` -/
def Trk.new : Obj → Trk
  | .lst _ => .lst []
  | _ => .node [] []

/-- debugging_utils.py:273-276 `_should_track` -/
def shouldTrack (k : PKey) (v : Obj) : Bool :=
  (match k with
    | .str ('_' :: '_' :: _) => false
    | _ => true) && (v.isDict || v.isList)

/-- `isinstance(key, int)` -/
def PKey.isInt : PKey → Bool
  | .int _ => true
  | .str _ => false

/-- debugging_utils.py:289-296 `TrackingDict.__getitem__` and 359-369 `TrackingList.__getitem__`, one after the other along
a path: `obj[k1][k2]..`; a missing key ends it with an exception -/
def touch : Obj → Trk → List PKey → Trk
  | _, t, [] => t
  | .dic d, .node acc subs, k :: p =>
    match dGet k d with
    | none => .node acc subs
    | some v =>
      .node (if k.isInt then k :: acc else acc)
        (if shouldTrack k v then dSet k (touch v ((dGet k subs).getD (Trk.new v)) p) subs else subs)
  | .lst l, .lst acc, .int n :: _ => if 0 ≤ n ∧ n < l.length then .lst (n.toNat :: acc) else .lst acc
  | _, t, _ => t

mutual
/-- debugging_utils.py:318-328 and 395-404 `_verify_complete_retrieval` -/
def verifyO : Obj → Trk → Res Unit
  | .dic d, .node acc subs =>
    if acc ≠ [] ∧ ∃ k ∈ dKeys d, k.isInt = true ∧ k ∉ acc then .error .indexError else verifyD d subs
  | .lst l, .lst acc => if acc ≠ [] ∧ ∃ n ∈ List.range l.length, n ∉ acc then .error .indexError else .ok ()
  | _, _ => .ok ()
/-- debugging_utils.py:324-328: the tracked entries -/
def verifyD : List (PKey × Obj) → List (PKey × Trk) → Res Unit
  | [], _ => .ok ()
  | (k, o) :: d, subs =>
    match dGet k subs with
    | none => verifyD d subs
    | some t => do
      verifyO o t
      verifyD d subs
end

/-- a sequence of retrievals from the root object, and the test at the end (endf_parser.py:1021-1022, 1071-1072) -/
def verifyAfter (o : Obj) (hist : List (List PKey)) : Res Unit := verifyO o (hist.foldl (touch o) (Trk.new o))

end Verif
