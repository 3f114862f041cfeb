import Verif.Lemmas.Cursor
/-
Every object reader goes forward.
-/
namespace Verif

theorem Inside.tobject : Inside TObject.unmarshal := by
  unfold TObject.unmarshal
  refine (Inside.skipVersion _).bind fun _ => ?_
  fwd

macro_rules | `(tactic| fwd) => `(tactic| repeat' first
  | (extract_lets jp
     suffices hjp : ∀ a, Fwd (jp a) by
       clear_value jp
       fwd
     intro a
     dsimp -zeta only [jp]
     clear jp)
  | (extract_lets jp
     have hjp : Fwd jp := by dsimp -zeta only [jp]; fwd
     clear_value jp)
  | (extract_lets jp
     clear_value jp)
  | with_reducible exact Inside.string.fwd | with_reducible exact Inside.header.fwd
  | with_reducible exact Inside.tobject.fwd | with_reducible exact Fwd.pure _
  | with_reducible exact Inside.u8.fwd | with_reducible exact Inside.u16.fwd
  | with_reducible exact Inside.u32.fwd | with_reducible exact Inside.i8.fwd
  | with_reducible exact Inside.i16.fwd | with_reducible exact Inside.i32.fwd
  | with_reducible exact Inside.i64.fwd | with_reducible exact Inside.f32.fwd
  | with_reducible exact Inside.f64.fwd | with_reducible exact Inside.bool.fwd
  | with_reducible exact (Inside.take _).fwd | with_reducible exact (Inside.fail _).fwd
  | with_reducible exact Inside.panic.fwd | with_reducible exact Fwd.ensureMax _ _
  | with_reducible exact Fwd.ensureMin _ _ | with_reducible exact Fwd.orPanic _
  | with_reducible exact Fwd.pos | with_reducible exact Fwd.ref _
  | with_reducible exact Fwd.setRef _ _
  | with_reducible assumption
  | with_reducible apply_assumption
  | with_reducible refine Fwd.times ?_ _
  | with_reducible refine Fwd.mapList (fun _ => ?_) _
  | with_reducible refine Fwd.bind ?_ fun _ => ?_
  | with_reducible refine Fwd.ite ?_ ?_
  | split)

/-- A record that starts with its header. -/
macro "fwdh" : tactic => `(tactic| (refine Inside.header.bind fun _ => ?_; fwd))

theorem Inside.named : Inside TNamed.unmarshal := by unfold TNamed.unmarshal; fwdh
theorem Inside.attLine : Inside AttLine.unmarshal := by unfold AttLine.unmarshal; fwdh
theorem Inside.attFill : Inside AttFill.unmarshal := by unfold AttFill.unmarshal; fwdh
theorem Inside.attMarker : Inside AttMarker.unmarshal := by unfold AttMarker.unmarshal; fwdh
theorem Inside.ioFeatures : Inside TioFeatures.unmarshal := by unfold TioFeatures.unmarshal; fwdh
theorem Inside.objString : Inside TObjString.unmarshal := by unfold TObjString.unmarshal; fwdh
theorem Fwd.seek (b : Bool) : Fwd (Rd.seek b) := by unfold Rd.seek; fwd

theorem Inside.key : Inside Key.unmarshal := by
  unfold Key.unmarshal Rd.datetime
  have := Fwd.seek
  refine Inside.i32.bind fun _ => ?_
  fwd

theorem Inside.dir : Inside Dir.unmarshal := by
  unfold Dir.unmarshal Rd.datetime
  have := Fwd.seek
  refine Inside.i16.bind fun _ => ?_
  fwd

theorem Inside.segment : Inside FreeSegments.unmarshal := by
  unfold FreeSegments.unmarshal
  have := Fwd.seek
  refine Inside.i16.bind fun _ => ?_
  fwd

theorem Inside.fileHeader : Inside FileHeader.unmarshal := by
  unfold FileHeader.unmarshal
  have := Fwd.seek
  refine (Inside.take 4).bind fun _ => ?_
  fwd

theorem Inside.streamerElement : Inside StreamerElement.unmarshal := by
  unfold StreamerElement.unmarshal
  have := Inside.named.fwd
  fwdh

theorem Inside.streamerPlain (mk) : Inside (Streamer.unmarshalPlain mk) := by
  unfold Streamer.unmarshalPlain
  have := Inside.streamerElement.fwd
  fwdh

theorem Inside.streamerBase : Inside Streamer.unmarshalBase := by
  unfold Streamer.unmarshalBase
  have := Inside.streamerElement.fwd
  fwdh

theorem Inside.streamerBasicType : Inside Streamer.unmarshalBasicType := by
  unfold Streamer.unmarshalBasicType
  refine Inside.header.bind fun _ => (Fwd.ensureMax _ _).bind fun _ =>
    Inside.streamerElement.fwd.bind fun e => ?_
  extract_lets et et'
  clear_value et'
  generalize EnumNamed.fromI32 et' = x
  rcases x with _ | t
  · exact (Inside.fail _).fwd
  · dsimp only
    generalize t.basicSize = y
    rcases y with _ | n
    · exact .pure _
    · exact .ite (.ite (.pure _) Inside.panic.fwd) (.pure _)

theorem Inside.streamerBasicPointer : Inside Streamer.unmarshalBasicPointer := by
  unfold Streamer.unmarshalBasicPointer
  have := Inside.streamerElement.fwd
  fwdh

theorem Inside.streamerStl : Inside Streamer.unmarshalStl := by
  unfold Streamer.unmarshalStl
  have := Inside.streamerElement.fwd
  fwdh

theorem Inside.streamerStlString : Inside Streamer.unmarshalStlString := by
  unfold Streamer.unmarshalStlString
  have := Inside.streamerStl.fwd
  fwdh

theorem Inside.basket : Inside Basket.unmarshal := by
  unfold Basket.unmarshal
  refine Inside.key.bind fun _ => ?_
  fwd

section
variable {ο : Type} {any : Rd (Option ο)} (ha : Fwd any)
include ha

theorem Inside.tlist : Inside (TList.unmarshal any) := by unfold TList.unmarshal; fwdh
theorem Inside.objArray : Inside (TObjArray.unmarshal any) := by unfold TObjArray.unmarshal; fwdh
theorem Inside.tleaf (f) : Inside (TLeaf.unmarshal any f) := by
  unfold TLeaf.unmarshal
  have := Inside.named.fwd
  fwdh

theorem Inside.leafVar (k : LeafKind) (f) : Inside (Leaf.unmarshalVar k any f) := by
  unfold Leaf.unmarshalVar
  have := (Inside.tleaf ha f).fwd
  have : Fwd k.get := by unfold LeafKind.get; fwd
  fwdh

theorem Inside.leafElement (f) : Inside (Leaf.unmarshalElement any f) := by
  unfold Leaf.unmarshalElement
  have := (Inside.tleaf ha f).fwd
  fwdh

end

section
variable {any : Rd (Option Obj)} (ha : Fwd any)
include ha

theorem Inside.sinfo : Inside (StreamerInfo.unmarshal any) := by
  unfold StreamerInfo.unmarshal
  have := Inside.named.fwd
  have : ∀ o, Fwd (Obj.toStreamer o) := by intro o; unfold Obj.toStreamer; fwd
  fwdh

theorem Inside.tmap : Inside (TMap.unmarshal any) := by unfold TMap.unmarshal; fwdh

theorem Inside.arrayOf {α} (conv : Obj → Option α) : Inside (Rd.arrayOf any conv) := by
  unfold Rd.arrayOf
  exact (Inside.objArray ha).bind fun _ => Fwd.orPanic _

omit ha in
theorem Inside.table {item : Rd Int} (h : Fwd item) (n k : Int) : Inside (Rd.table item n k) := by
  unfold Rd.table
  refine Inside.i8.bind fun _ => ?_
  fwd

theorem Fwd.branchNew (v : Int) : Fwd (BranchData.unmarshalNew any v) := by
  unfold BranchData.unmarshalNew
  have := Inside.named.fwd
  have := Inside.attFill.fwd
  have := Inside.ioFeatures.fwd
  have := (Inside.arrayOf ha Obj.toBranch).fwd
  have := (Inside.arrayOf ha Obj.toLeaf).fwd
  have := (Inside.arrayOf ha Obj.toBasket).fwd
  have := fun n k => (Inside.table Inside.i32.fwd n k).fwd
  have := fun n k => (Inside.table Inside.i64.fwd n k).fwd
  fwd

theorem Fwd.branchOld (v : Int) : Fwd (BranchData.unmarshalOld any v) := by
  unfold BranchData.unmarshalOld
  have := Inside.named.fwd
  have := Inside.attFill.fwd
  have := (Inside.arrayOf ha Obj.toBranch).fwd
  have := (Inside.arrayOf ha Obj.toLeaf).fwd
  have := (Inside.arrayOf ha Obj.toBasket).fwd
  have := fun n k => (Inside.table Inside.i32.fwd n k).fwd
  fwd

theorem Inside.branchData : Inside (BranchData.unmarshal any) := by
  unfold BranchData.unmarshal
  have := Fwd.branchNew ha
  have := Fwd.branchOld ha
  fwdh

theorem Inside.branchBase : Inside (Branch.unmarshalBase any) :=
  (Inside.branchData ha).bind fun _ => .pure _

theorem Inside.branchElement : Inside (Branch.unmarshalElement any) := by
  unfold Branch.unmarshalElement
  have := (Inside.branchData ha).fwd
  fwdh

/-- One join point. -/
macro "fwd_jp" : tactic => `(tactic|
  (extract_lets jp
   suffices hjp : ∀ a, Fwd (jp a) by
     clear_value jp
     fwd
   intro a
   dsimp -zeta only [jp]
   clear jp))

theorem Inside.tree : Inside (TreeData.unmarshal any) := by
  unfold TreeData.unmarshal
  have := Inside.named.fwd
  have := Inside.attLine.fwd
  have := Inside.attFill.fwd
  have := Inside.attMarker.fwd
  have := Inside.ioFeatures.fwd
  have := (Inside.arrayOf ha Obj.toBranch).fwd
  have := (Inside.objArray ha).fwd
  have := fun n k => (Inside.table Inside.i64.fwd n k).fwd
  have hnil : Fwd (Rd.mustBeNil any) := by unfold Rd.mustBeNil; fwd
  refine Inside.header.bind fun _ => ?_
  iterate 6 refine Fwd.bind (by fwd) fun _ => ?_
  extract_lets big num jp
  have : Fwd big := by dsimp only [big]; fwd
  have : Fwd num := by dsimp only [num]; fwd
  have : ∀ a, Fwd (jp a) := fun a => hnil.bind fun _ => .pure _
  clear_value big num jp
  iterate 4 refine Fwd.bind (by fwd) fun _ => ?_
  fwd_jp
  fwd_jp
  iterate 3 refine Fwd.bind (by fwd) fun _ => ?_
  fwd_jp
  fwd_jp
  fwd_jp
  iterate 3 refine Fwd.bind (by fwd) fun _ => ?_
  fwd_jp
  refine Fwd.bind (by fwd) fun _ => ?_
  fwd_jp
  fwd_jp
  fwd_jp
  iterate 2 refine Fwd.bind (by fwd) fun _ => ?_
  extract_lets jp' jp0
  have hjp : ∀ a, Fwd (jp' a) := fun a => .pure _
  suffices hjp0 : ∀ a, Fwd (jp0 a) from .ite (hnil.bind hjp0) (hjp0 ())
  intro a
  refine hnil.bind fun _ => hnil.bind fun _ => ?_
  clear jp0
  clear_value jp'
  refine .ite (.bind (hnil.bind fun _ => hnil.bind fun _ => ha.bind fun u => ?_) hjp)
    ((Fwd.pure _).bind hjp)
  have hp : ∀ x, Fwd ((pure x : Rd (Option (TObject × Str × List Obj))) >>= jp) :=
    fun x => (Fwd.pure x).bind (by assumption)
  have hq : Fwd ((Rd.panic : Rd (Option (TObject × Str × List Obj))) >>= jp) :=
    Inside.panic.fwd.bind (by assumption)
  rcases u with _ | u
  · exact hp _
  · cases u <;> first | exact hq | exact hp _

theorem Inside.factory {cls : Str} {m : Rd Obj} (h : unmarshalOf any cls = some m) : Inside m := by
  have key : ∀ {α} {m : Rd α} {f : α → Obj}, Inside m → Inside (do let x ← m; pure (f x)) :=
    fun h => h.bind fun _ => .pure _
  have alt : ∀ {c : Prop} [Decidable c] {m1 m : Rd Obj} {x : Option (Rd Obj)}, Inside m1 →
      (x = some m → Inside m) → (if c then some m1 else x) = some m → Inside m := by
    intro c _ m1 m x h1 h2 h
    split at h
    · cases h; exact h1
    · exact h2 h
  unfold unmarshalOf at h
  revert h
  refine alt (key (Inside.tlist ha)) ?_
  refine alt (Inside.tmap ha) ?_
  refine alt (key (Inside.objArray ha)) ?_
  refine alt (key (Inside.sinfo ha)) ?_
  refine alt (key Inside.streamerBase) ?_
  refine alt (key (Inside.streamerPlain _)) ?_
  refine alt (key Inside.streamerBasicType) ?_
  refine alt (key (Inside.streamerPlain _)) ?_
  refine alt (key (Inside.streamerPlain _)) ?_
  refine alt (key (Inside.streamerPlain _)) ?_
  refine alt (key Inside.streamerBasicPointer) ?_
  refine alt (key Inside.streamerStl) ?_
  refine alt (key Inside.streamerStlString) ?_
  refine alt (key Inside.objString) ?_
  refine alt (key Inside.attLine) ?_
  refine alt (key Inside.attFill) ?_
  refine alt (key Inside.attMarker) ?_
  refine alt (key (Inside.tree ha)) ?_
  refine alt (key (Inside.branchBase ha)) ?_
  refine alt (key (Inside.branchElement ha)) ?_
  refine alt (key (Inside.tleaf ha _)) ?_
  refine alt (key (Inside.leafElement ha _)) ?_
  iterate 8 refine alt (key (Inside.leafVar ha _ _)) ?_
  refine alt (key Inside.basket) ?_
  intro h
  cases h

end

theorem Inside.objectAny {build : Str → Option (Rd Obj)} (h : ∀ c m, build c = some m → Inside m) :
    Inside (Rd.objectAny build) := by
  have htag : ∀ v s t, Fwd (Rd.anyTag build v s t) := by
    intro v s t
    unfold Rd.anyTag
    refine .ite (.ite (.pure _) (.ite (Inside.fail _).fwd (.pure _))) (.ite ?_ ?_)
    · refine (Mono.bindInside (Mono.cstring 80) fun cname => ?_).fwd
      cases hb : build cname with
      | none => exact Inside.fail _
      | some m =>
        refine .ite ?_ Inside.panic
        exact Mono.bindInside (Fwd.setRef _ _).mono fun _ => (h _ _ hb).bind fun _ => .pure _
    · refine (Fwd.ref _).bind fun o => ?_
      cases o with
      | none => exact Inside.panic.fwd
      | some c =>
        dsimp only
        cases hb : build c with
        | none => exact Inside.panic.fwd
        | some m => exact ((h _ _ hb).bind fun _ => .pure _).fwd
  unfold Rd.objectAny
  refine Inside.u32.bind fun b => .ite (htag _ _ _) (Fwd.pos.bind fun _ =>
    Inside.u32.fwd.bind fun _ => htag _ _ _)

theorem Inside.readAny : (fuel : Nat) → Inside (readAny fuel)
  | 0 => Inside.panic
  | fuel + 1 => Inside.objectAny fun _ _ h => Inside.factory (Inside.readAny fuel).fwd h

end Verif
