import Verif.Model.TreeRecords
/-
How the user information of a tree is looked at.
-/
namespace Verif

/-- `downcast_ref::<TObjString>()` and `to_string` (rbase/objstring.rs 14-17). -/
def Obj.asText : Obj → Option Str
  | .objString _ s => some s
  | _ => none

/-- `downcast_ref::<TMap>()`. -/
def Obj.asMap : Obj → Option (List (Str × Obj))
  | .map _ _ entries => some entries
  | _ => none

/-- rcont/list.rs 61-64 `ReaderList::at`: an index out of range aborts, and so does the `unwrap` of a
downcast to another type. -/
def listAt {α} (cast : Obj → Option α) (objs : List Obj) (i : Nat) : Res α :=
  match objs[i]? with
  | none => .error .panic
  | some o => match cast o with
    | none => .error .panic
    | some v => .ok v

/-- rcont/tmap.rs 21-26 `TMap::get`. -/
def mapGet {α} (cast : Obj → Option α) (m : List (Str × Obj)) (key : Str) : Res (Option α) :=
  match m.lookup key with
  | none => .ok none
  | some o => match cast o with
    | none => .error .panic
    | some v => .ok (some v)

end Verif
