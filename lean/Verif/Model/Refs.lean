import Verif.Model.Objects
/-
The class-tag mechanism: `write_object_any`/`write_class` (rbytes/wbuffer.rs 190-297) and
`read_object_any_into` (rbytes/rbuffer.rs 271-427), and the two generic containers built on it
(rcont/list.rs, rcont/objarray.rs).
-/
namespace Verif

/-! ### Writing -/

/-- What `write_object_any` gets: the class name (`obj.class()`), the address that identifies the
object, and its `marshal`. -/
structure WObj where
  cls : Str
  addr : Nat
  marshal : Wr Nat

namespace Wr

/-- `self.refs_p.get(&addr)`. -/
def refP (addr : Nat) : Wr (Option Nat) := fun w => .ok (w.refsP.lookup addr, w)
/-- `self.refs_s.get(class)`. -/
def refS (cls : Str) : Wr (Option Nat) := fun w => .ok (w.refsS.lookup cls, w)
/-- `self.refs_p.insert(addr, v)`. -/
def setRefP (addr v : Nat) : Wr Unit := fun w => .ok ((), { w with refsP := (addr, v) :: w.refsP })
/-- `self.refs_s.insert(class, v)`. -/
def setRefS (cls : Str) (v : Nat) : Wr Unit :=
  fun w => .ok ((), { w with refsS := (cls, v) :: w.refsS })

/-- wbuffer.rs 233-297 `write_class`; `u32` truncates like the `as u32` casts. -/
def writeClass (beg : Nat) (o : WObj) : Wr Nat := do
  lenMinusOne
  let start ← pos
  match ← refP o.addr with
  | some ref64 =>
    u32 ref64
    let e ← pos
    pure ((e - start) ||| kByteCountMask)
  | none =>
    match ← refS o.cls with
    | some ref64 =>
      u32 (ref64 ||| kClassMask)
      drop o.marshal
      setRefP o.addr (beg + kMapOffset)
      let e ← pos
      pure ((e - start) ||| kByteCountMask)
    | none =>
      u32 kNewClassTag
      cstring o.cls
      setRefS o.cls ((start + kMapOffset) ||| kClassMask)
      setRefP o.addr (beg + kMapOffset)
      drop o.marshal
      let e ← pos
      pure ((e - start) ||| kByteCountMask)

/-- wbuffer.rs 190-227 `write_object_any`. -/
def objectAny (o : WObj) : Wr Nat := do
  let beg ← pos
  lenMinusOne
  i32 0
  let bcnt ← writeClass beg o
  inPlace (beBytes 4 bcnt) beg
  let e ← pos
  pure (e - beg)

end Wr

/-! ### Reading -/

namespace Rd

/-- `self.refs.get(&k)`. -/
def ref (k : Nat) : Rd (Option Str) := fun r => .ok (r.refs.lookup k, r)
/-- `self.refs.insert(k, Func(*fct))`. -/
def setRef (k : Nat) (cls : Str) : Rd Unit := fun r => .ok ((), { r with refs := (k, cls) :: r.refs })

/-- rbuffer.rs 324-426, after the tag has been read.  `build` is the factory: for a registered
class name, `fct()` followed by `unmarshal`. -/
def anyTag {ο} (build : Str → Option (Rd ο)) (vers : Bool) (start tag : Nat) : Rd (Option ο) := do
  if tag &&& kClassMask = 0 then
    if tag = kNullTag then pure none
    else if tag = 1 then fail .misc
    else pure none
  else if tag = kNewClassTag then
    let cname ← cstring 80
    match build cname with
    | none => fail .classNotRegistered
    | some m =>
      if vers then
        setRef (start + kMapOffset) cname
        let o ← m
        pure (some o)
      else panic
  else
    match ← ref (tag - kClassMask) with
    | none => panic
    | some cname =>
      match build cname with
      | none => panic
      | some m =>
        let o ← m
        pure (some o)

/-- rbuffer.rs 271-427 `read_object_any_into`. -/
def objectAny {ο} (build : Str → Option (Rd ο)) : Rd (Option ο) := do
  let bcnt ← u32
  if bcnt &&& kByteCountMask = 0 ∨ bcnt = kNewClassTag then anyTag build false 0 bcnt
  else
    let start ← pos
    let tag ← u32
    anyTag build true start tag

end Rd

/-! ### TList and TObjArray -/

/-- rvers.rs `LIST`. -/
def rversList : Int := 5
/-- rvers.rs `OBJ_ARRAY`. -/
def rversObjArray : Int := 3

/-- rcont/list.rs 157-184 `WriterList::marshal`. -/
def TList.marshal (obj : TObject) (name : Option Str) (objs : List WObj) : Wr Nat := Wr.counted do
  Wr.drop <| Wr.framed rversList do
    Wr.drop obj.marshal
    Wr.string (name.getD [])
    Wr.i32 (toSigned 4 (objs.length % 2 ^ 32))
    Wr.each (fun o => do
      Wr.drop (Wr.objectAny o)
      Wr.string []) objs

/-- rcont/list.rs 85-116 `ReaderList::unmarshal`; `any` is `read_object_any_into`, a negative size
makes the loop empty. -/
def TList.unmarshal {ο} (any : Rd (Option ο)) : Rd (TObject × Str × List ο) := do
  let h ← Rd.header
  Rd.ensureMax h.vers rversList
  Rd.ensureMin h.vers 3
  let obj ← TObject.unmarshal
  let name ← Rd.string
  let size ← Rd.i32
  let objs ← Rd.times size.toNat do
    match ← any with
    | none => Rd.panic
    | some o =>
      let n ← Rd.u8
      if 0 < n then Rd.panic else pure o
  pure (obj, name, objs)

/-- rcont/objarray.rs 167-196 `WriterObjArray::marshal`; `len().try_into()?` fails above `i32::MAX`. -/
def TObjArray.marshal (obj : TObject) (name : Option Str) (low : Int) (objs : List WObj) : Wr Nat :=
  Wr.framed rversObjArray do
    Wr.drop obj.marshal
    Wr.string (name.getD [])
    if 2 ^ 31 ≤ objs.length then Wr.fail .misc
    else
      Wr.i32 objs.length
      Wr.i32 low
      Wr.each (fun o => Wr.drop (Wr.objectAny o)) objs

/-- rcont/objarray.rs 103-147 `ReaderObjArray::unmarshal` on an empty array (`obj` stays the default
below version 3, `name` below version 2).  Null objects are dropped. -/
def TObjArray.unmarshal {ο} (any : Rd (Option ο)) : Rd (TObject × Option Str × Int × List ο) := do
  let h ← Rd.header
  Rd.ensureMax h.vers rversObjArray
  let obj ← if 2 < h.vers then TObject.unmarshal else pure TObject.default
  let name ← if 1 < h.vers then (do let s ← Rd.string; pure (some s)) else pure none
  let nobjs ← Rd.i32
  let low ← Rd.i32
  let objs ← Rd.times nobjs.toNat any
  pure (obj, name, low, objs.filterMap id)

end Verif
