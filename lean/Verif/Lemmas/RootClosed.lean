import Verif.Lemmas.RootFiles
import Verif.Lemmas.Walk
namespace Verif

/-! ### Writers that do the same when the first succeeds -/

/-- Whenever the first succeeds the second does the same. -/
def Wr.Sub {α} (m m' : Wr α) : Prop := ∀ w r, m w = .ok r → m' w = .ok r

theorem Wr.Sub.refl {α} (m : Wr α) : m.Sub m := fun _ _ h => h

theorem Wr.Sub.bind {α β} {m m' : Wr α} {f g : α → Wr β} (h : m.Sub m') (hf : ∀ a, (f a).Sub (g a)) :
    (m >>= f).Sub (m' >>= g) := by
  intro w r hr
  have hr : (match m w with | .ok (a, w') => f a w' | .error e => .error e) = .ok r := hr
  cases hm : m w with
  | error e => rw [hm] at hr; cases hr
  | ok x =>
    rw [hm] at hr
    obtain ⟨a, w'⟩ := x
    rw [Wr.bind_ok (h _ _ hm)]
    exact hf a _ _ hr

theorem Wr.Sub.skip {α} {f : Unit → Wr α} {m : Wr α} (h : (f ()).Sub m) : (Wr.lenMinusOne >>= f).Sub m := by
  intro w r hr
  by_cases h0 : w.p.length = 0
  · have e : Wr.lenMinusOne w = .error .panic := by unfold Wr.lenMinusOne; rw [if_pos h0]
    rw [Wr.bind_err e] at hr
    cases hr
  · have e : Wr.lenMinusOne w = .ok ((), w) := by unfold Wr.lenMinusOne; rw [if_neg h0]
    rw [Wr.bind_ok e] at hr
    exact h _ _ hr

theorem Wr.Sub.drop {α} {m m' : Wr α} (h : m.Sub m') : (Wr.drop m).Sub (Wr.drop m') :=
  h.bind fun _ => .refl _

theorem Wr.Sub.framed {v : Int} {m m' : Wr Unit} (h : m.Sub m') : (Wr.framed v m).Sub (Wr.framed v m') :=
  (Wr.Sub.refl _).bind fun _ => h.bind fun _ => .refl _

theorem Wr.Sub.each {α β} {f : α → Wr Unit} {g : β → Wr Unit} {as : List α} {bs : List β}
    (h : Pairs (fun a b => (f a).Sub (g b)) as bs) : (Wr.each f as).Sub (Wr.each g bs) := by
  induction h with
  | nil => exact .refl _
  | cons h _ ih => exact h.bind fun _ => ih

/-- An object that is written as another would be. -/
structure WObj.Sub (o o' : WObj) : Prop where
  cls : o.cls = o'.cls
  addr : o.addr = o'.addr
  marshal : o.marshal.Sub o'.marshal

theorem WObj.Sub.any {o o' : WObj} (h : o.Sub o') : (Wr.objectAny o).Sub (Wr.objectAny o') := by
  refine (Wr.Sub.refl _).bind fun beg => (Wr.Sub.refl _).bind fun _ => (Wr.Sub.refl _).bind fun _ =>
    Wr.Sub.bind ?_ fun _ => .refl _
  refine (Wr.Sub.refl _).bind fun _ => (Wr.Sub.refl _).bind fun _ => ?_
  rw [h.addr, h.cls]
  refine (Wr.Sub.refl _).bind fun r => ?_
  cases r with
  | some _ => exact .refl _
  | none =>
    refine (Wr.Sub.refl _).bind fun r => ?_
    cases r with
    | some _ => exact (Wr.Sub.refl _).bind fun _ => h.marshal.drop.bind fun _ => .refl _
    | none =>
      exact (Wr.Sub.refl _).bind fun _ => (Wr.Sub.refl _).bind fun _ => (Wr.Sub.refl _).bind fun _ =>
        (Wr.Sub.refl _).bind fun _ => h.marshal.drop.bind fun _ => .refl _

theorem Wr.Sub.list {l l' : List WObj} (h : Pairs WObj.Sub l l') (obj : TObject) :
    (TList.marshal obj none l).Sub (TList.marshal obj (some []) l') := by
  unfold TList.marshal Wr.counted
  rw [h.length_eq]
  refine (Wr.Sub.refl _).bind fun _ => Wr.Sub.bind (Wr.Sub.drop (Wr.Sub.framed ?_)) fun _ => .refl _
  refine (Wr.Sub.refl _).bind fun _ => (Wr.Sub.refl _).bind fun _ => (Wr.Sub.refl _).bind fun _ => Wr.Sub.each ?_
  induction h with
  | nil => exact .nil
  | cons h _ ih => exact .cons (h.any.drop.bind fun _ => .refl _) ih

/-! ### Class records -/

/-- The code that is stored. -/
def StreamerElement.code (e : StreamerElement) : Int := e.etype.stored.toI32

def Streamer.memberKind : Streamer → MemberKind
  | .string _ => .string
  | .stlString _ v c => .stlString v c.toI32
  | .basicType _ => .basic
  | .basicPointer _ v n c => .basicPointer v n c
  | .objectAny _ => .objectAny
  | .stl _ v c => .stl v c.toI32
  | .base _ v => .base v
  | .object _ => .object
  | .objectPointer _ => .objectPointer

/-- The member a class record describes. -/
def Streamer.member (s : Streamer) : RootMember :=
  { addr := s.element.id, kind := s.memberKind, named := s.element.named, code := s.element.code
    size := s.element.esize, arrLen := s.element.arrLen, arrDim := s.element.arrDim
    maxIdx := s.element.maxIdx, typeName := s.element.ename }

/-- The class a class record describes. -/
def StreamerInfo.rootInfo (s : StreamerInfo) (addr : Nat) : RootInfo :=
  { addr := addr, arrayAddr := s.id, named := s.named, chksum := s.chksum, clsver := s.clsver
    members := s.elems.map Streamer.member }

/-- The classes of a list of class records. -/
def rootInfos (env : Env) : Nat → List StreamerInfo → List RootInfo
  | _, [] => []
  | i, s :: ss => s.rootInfo (env.addr i) :: rootInfos env (i + 1) ss

theorem StreamerElement.code_eq (e : StreamerElement) : (if e.etype = .named .tNamed then 0
    else if e.etype = .named .tObject then 0 else e.etype.toI32) = e.code := by
  unfold StreamerElement.code EnumT.stored
  by_cases h1 : e.etype = .named .tNamed
  · rw [if_pos h1, if_pos (Or.inl h1)]; rfl
  · rw [if_neg h1]
    by_cases h2 : e.etype = .named .tObject
    · rw [if_pos h2, if_pos (Or.inr h2)]; rfl
    · rw [if_neg h2, if_neg (by intro h; rcases h with h | h <;> contradiction)]

theorem Streamer.member_base (s : Streamer) : (Wr.drop s.element.marshal).Sub s.member.base := by
  refine Wr.Sub.drop (Wr.Sub.skip ?_)
  rw [StreamerElement.code_eq]
  exact .refl _

theorem Streamer.member_sub {s : Streamer} (h : s.Storable) :
    WObj.Sub { cls := s.cls, addr := s.element.id, marshal := s.marshal } s.member.obj := by
  refine ⟨?_, rfl, ?_⟩
  · cases s <;> rfl
  · cases s with
    | stlString e v c => exact h.elim
    | string e => exact Wr.Sub.skip (Wr.Sub.framed (Streamer.member_base (.string e)))
    | basicType e => exact Wr.Sub.skip (Wr.Sub.framed (Streamer.member_base (.basicType e)))
    | object e => exact Wr.Sub.skip (Wr.Sub.framed (Streamer.member_base (.object e)))
    | objectPointer e => exact Wr.Sub.skip (Wr.Sub.framed (Streamer.member_base (.objectPointer e)))
    | objectAny e => exact Wr.Sub.skip (Wr.Sub.framed (Streamer.member_base (.objectAny e)))
    | base e v => exact Wr.Sub.skip (Wr.Sub.framed ((Streamer.member_base (.base e v)).bind fun _ => .refl _))
    | basicPointer e v n c =>
      exact Wr.Sub.skip (Wr.Sub.framed ((Streamer.member_base (.basicPointer e v n c)).bind fun _ => .refl _))
    | stl e v c => exact Wr.Sub.skip (Wr.Sub.framed ((Streamer.member_base (.stl e v c)).bind fun _ => .refl _))

theorem StreamerInfo.rootInfo_sub {s : StreamerInfo} (h : s.Describable) (a : Nat) :
    WObj.Sub { cls := b! "TStreamerInfo", addr := a, marshal := s.marshal } (s.rootInfo a).obj := by
  refine ⟨rfl, rfl, Wr.Sub.skip (Wr.Sub.framed ?_)⟩
  refine (Wr.Sub.refl _).bind fun _ => (Wr.Sub.refl _).bind fun _ => (Wr.Sub.refl _).bind fun _ => Wr.Sub.drop (WObj.Sub.any ?_)
  refine ⟨rfl, rfl, Wr.Sub.skip (Wr.Sub.framed ?_)⟩
  refine (Wr.Sub.refl _).bind fun _ => (Wr.Sub.refl _).bind fun _ => ?_
  have hf := h.few
  rw [if_neg (by rw [List.length_map]; omega)]
  have hl : (s.rootInfo a).members.length = s.elems.length := List.length_map ..
  rw [hl, List.length_map]
  refine (Wr.Sub.refl _).bind fun _ => (Wr.Sub.refl _).bind fun _ => Wr.Sub.each ?_
  have he := h.elems
  show Pairs _ _ (s.elems.map Streamer.member)
  generalize s.elems = l at he
  induction l with
  | nil => exact .nil
  | cons e l ih =>
    exact .cons (Wr.Sub.drop (Streamer.member_sub (he e (List.mem_cons_self ..))).any)
      (ih fun e he' => he e (List.mem_cons_of_mem _ he'))

theorem rootInfos_sub {env : Env} {s : List StreamerInfo} (h : ∀ x ∈ s, x.Describable) (n : Nat) :
    Pairs WObj.Sub (placedInfos env n s) ((rootInfos env n s).map RootInfo.obj) := by
  induction s generalizing n with
  | nil => exact .nil
  | cons a s ih =>
    exact .cons (StreamerInfo.rootInfo_sub (h a (List.mem_cons_self ..)) _)
      (ih (fun x hx => h x (List.mem_cons_of_mem _ hx)) (n + 1))

theorem rootInfos_write {env : Env} {s : List StreamerInfo} (h : ∀ x ∈ s, x.Describable) :
    (TList.marshal TObject.default none (placedInfos env 0 s)).Sub (RootInfos.write ⟨rootInfos env 0 s, none⟩) := by
  unfold RootInfos.write
  refine Wr.Sub.list ?_ _
  show Pairs _ _ (_ ++ [])
  rw [List.append_nil]
  exact rootInfos_sub h 0

/-! ### They are described as they should be -/

theorem EnumT.stored_fix {t : EnumT} (h : EnumT.fromI32 t.toI32 = t) : EnumT.fromI32 t.stored.toI32 = t.stored := by
  unfold EnumT.stored
  split
  · decide
  · exact h

theorem Streamer.member_type {s : Streamer} (h : s.element.Storable) : s.member.type = s.element.etype.stored := by
  have h1 := EnumT.stored_fix h.etype
  unfold RootMember.type
  have e : s.member.code = s.element.etype.stored.toI32 := rfl
  by_cases hc : s.member.code = 11
  · rw [e] at hc
    rw [hc] at h1
    have hu : s.element.etype = .named .uChar := by
      have h2 : s.element.etype.stored = .named .uChar := by rw [← h1]; decide
      unfold EnumT.stored at h2
      split at h2
      · cases h2
      · exact h2
    have := h.notBool hu
    rw [if_neg, e, hc]
    · exact h1
    · rintro ⟨-, h | h⟩
      · exact this.1 h
      · exact this.2 h
  · rw [if_neg (fun h => hc h.1), e]
    exact h1

theorem Streamer.Storable.element {s : Streamer} (h : s.Storable) : s.element.Storable := by
  cases s with
  | stlString e v c => exact h.elim
  | string e => exact h
  | objectAny e => exact h
  | object e => exact h
  | objectPointer e => exact h
  | basicType e => exact h.1
  | basicPointer e v n c => exact h.1
  | stl e v c => exact h.1
  | base e v => exact h.1

theorem Streamer.member_seen {s : Streamer} (h : s.Storable) : s.member.seen = s.expected := by
  have ht := Streamer.member_type h.element
  have he : ({ named := s.member.named, etype := s.member.type, esize := s.member.size, arrLen := s.member.arrLen
               arrDim := s.member.arrDim, maxIdx := s.member.maxIdx, ename := s.member.typeName } : StreamerElement) =
      s.element.expected := by
    rw [ht]
    have h1 := h.element.xmin
    have h2 := h.element.xmax
    have h3 := h.element.factor
    unfold StreamerElement.expected
    rw [h1, h2, h3]
    rfl
  unfold RootMember.seen
  rw [he]
  cases s with
  | stlString e v c => exact h.elim
  | string e => rfl
  | objectAny e => rfl
  | object e => rfl
  | objectPointer e => rfl
  | basicType e => rfl
  | basicPointer e v n c => rfl
  | stl e v c =>
    show Streamer.stl e.expected v (EnumT.fromI32 c.toI32) = _
    rw [h.2.1]
    rfl
  | base e v => rfl

theorem Streamer.member_ok {s : Streamer} (h : s.Storable) : s.member.Ok := by
  have he := h.element
  have hc : InI 4 s.element.code := by
    unfold StreamerElement.code EnumT.stored
    split
    · decide
    · exact he.etypeFits
  refine ⟨⟨he.named, hc, he.esize, he.arrLen, he.arrDim, he.five, he.maxIdx, he.ename⟩, he.noRange, ?_⟩
  cases s with
  | stlString e v c => exact h.elim
  | string e => trivial
  | objectAny e => trivial
  | object e => trivial
  | objectPointer e => trivial
  | basicType e => exact h.2
  | basicPointer e v n c => exact h.2
  | stl e v c => exact h.2.2
  | base e v => exact h.2

theorem StreamerInfo.rootInfo_seen {s : StreamerInfo} (h : s.Describable) (a : Nat) :
    (s.rootInfo a).seen = s.expected := by
  have : (s.elems.map Streamer.member).map RootMember.seen = s.elems.map Streamer.expected := by
    rw [List.map_map]
    exact List.map_congr_left fun e he => Streamer.member_seen (h.elems e he)
  unfold RootInfo.seen StreamerInfo.expected
  rw [← this]
  rfl

theorem rootInfos_seen {env : Env} {s : List StreamerInfo} (h : ∀ x ∈ s, x.Describable) (n : Nat) :
    (rootInfos env n s).map RootInfo.seen = s.map StreamerInfo.expected := by
  induction s generalizing n with
  | nil => rfl
  | cons a s ih =>
    show (a.rootInfo _).seen :: _ = a.expected :: _
    rw [StreamerInfo.rootInfo_seen (h a (List.mem_cons_self ..)), ih fun x hx => h x (List.mem_cons_of_mem _ hx)]

theorem rootInfos_ok {env : Env} {s : List StreamerInfo} (h : ∀ x ∈ s, x.Describable) (n : Nat) :
    ∀ x ∈ rootInfos env n s, x.Ok := by
  induction s generalizing n with
  | nil => intro x hx; cases hx
  | cons a s ih =>
    intro x hx
    have ha := h a (List.mem_cons_self ..)
    rcases List.mem_cons.1 hx with rfl | hx
    · refine ⟨ha.named, ha.chksum, ha.clsver, fun m hm => ?_, by show (a.elems.map _).length < _; rw [List.length_map]; exact ha.few⟩
      obtain ⟨e, he, rfl⟩ := List.mem_map.1 hm
      exact Streamer.member_ok (ha.elems e he)
    · exact ih (fun x hx => h x (List.mem_cons_of_mem _ hx)) _ x hx

theorem rootInfos_length (env : Env) (n : Nat) (s : List StreamerInfo) : (rootInfos env n s).length = s.length := by
  induction s generalizing n with
  | nil => rfl
  | cons a s ih => exact congrArg (· + 1) (ih (n + 1))

theorem StreamerInfo.rootInfo_addrs (s : StreamerInfo) (a : Nat) : (s.rootInfo a).addrs = a :: s.ids := by
  unfold RootInfo.addrs StreamerInfo.ids
  show _ :: _ :: (s.elems.map Streamer.member).map _ = _
  rw [List.map_map]
  rfl

theorem mem_rootInfos_addrs {env : Env} {n : Nat} {s : List StreamerInfo} {x : Nat}
    (h : x ∈ (rootInfos env n s).flatMap RootInfo.addrs) : (∃ j, n ≤ j ∧ x = env.addr j) ∨ x ∈ s.flatMap StreamerInfo.ids := by
  induction s generalizing n with
  | nil => cases h
  | cons a s ih =>
    rcases List.mem_append.1 h with h | h
    · have h : x ∈ (a.rootInfo (env.addr n)).addrs := h
      rw [StreamerInfo.rootInfo_addrs] at h
      rcases List.mem_cons.1 h with rfl | h
      · exact .inl ⟨n, Nat.le_refl _, rfl⟩
      · exact .inr (List.mem_append_left _ h)
    · rcases ih h with ⟨j, hj, rfl⟩ | h
      · exact .inl ⟨j, by omega, rfl⟩
      · exact .inr (List.mem_append_right _ h)

theorem rootInfos_distinct {env : Env} (he : env.Sound) {s : List StreamerInfo}
    (hn : (s.flatMap StreamerInfo.ids).Nodup) {i : Nat} (hb : ∀ a ∈ s.flatMap StreamerInfo.ids, a < i)
    (ha : ∀ j, i ≤ env.addr j) (n : Nat) : ((rootInfos env n s).flatMap RootInfo.addrs).Nodup := by
  induction s generalizing n with
  | nil => exact List.nodup_nil
  | cons a s ih =>
    have hn : (a.ids ++ s.flatMap StreamerInfo.ids).Nodup := hn
    have hb : ∀ x ∈ a.ids ++ s.flatMap StreamerInfo.ids, x < i := hb
    rw [List.nodup_append] at hn
    show ((a.rootInfo (env.addr n)).addrs ++ (rootInfos env (n + 1) s).flatMap RootInfo.addrs).Nodup
    rw [StreamerInfo.rootInfo_addrs, List.nodup_append]
    refine ⟨List.nodup_cons.2 ⟨fun h => ?_, hn.1⟩, ih hn.2.1 (fun x hx => hb x (List.mem_append_right _ hx)) (n + 1), ?_⟩
    · have := hb _ (List.mem_append_left _ h)
      have := ha n
      omega
    · intro x hx y hy
      rcases List.mem_cons.1 hx with rfl | hx
      · rcases mem_rootInfos_addrs hy with ⟨j, hj, rfl⟩ | hy
        · intro h
          have := he.addresses _ _ h
          omega
        · have := hb _ (List.mem_append_right _ hy)
          have := ha n
          omega
      · rcases mem_rootInfos_addrs hy with ⟨j, hj, rfl⟩ | hy
        · have := hb _ (List.mem_append_left _ hx)
          have := ha j
          omega
        · exact hn.2.2 x hx y hy

/-! ### Records -/

theorem Pairs.of_get {α β : Type} {R : α → β → Prop} {as : List α} {bs : List β} (hl : as.length = bs.length)
    (h : ∀ (j : Nat) a b, as[j]? = some a → bs[j]? = some b → R a b) : Pairs R as bs := by
  induction as generalizing bs with
  | nil =>
    cases bs with
    | nil => exact .nil
    | cons b bs => simp at hl
  | cons a as ih =>
    cases bs with
    | nil => simp at hl
    | cons b bs =>
      refine .cons (h 0 a b rfl rfl) (ih (by simpa using hl) fun j a b ha hb => h (j + 1) a b ?_ ?_)
      · simpa using ha
      · simpa using hb

/-- A key written with what is behind it is a record. -/
theorem Key.at_record {dec : Decoders} {img : List Byte} {n t c : Str} {cy seek pdir : Int} {bs : List Byte}
    (hs : 0 ≤ seek) (hcy : InI 2 cy) (hp : 0 ≤ pdir) (hp' : pdir ≤ kStartBigFile) (hk : kl n t c < 32768)
    (un : utf8 n = true) (ut : utf8 t = true) (uc : utf8 c = true) (hc : c ≠ b! "TBasket")
    (he : seek + (kl n t c + bs.length) ≤ kStartBigFile)
    (hst : ∀ w ∈ (Key.at n t c cy bs.length (kl n t c) seek pdir false bs).twoWrites
      ((Key.at n t c cy bs.length (kl n t c) seek pdir false bs).enc packedNow), Stored img w.pos w.data) :
    RootRecord.In ⟨Key.at n t c cy bs.length (kl n t c) seek pdir false bs, packedNow, bs, none⟩ dec img := by
  have h26 : 26 ≤ kl n t c := (keyLenFor_ge _ _ _ false false).1
  have hle := Key.at_enc_length n t c cy bs.length seek pdir bs
  have hx : extra c = 0 := by unfold extra; rw [if_neg hc]
  rw [hx, Int.sub_zero] at hle
  refine ⟨Key.at_inRange (by omega) hs he hcy hp hp' hk un ut uc, packedNow_lt, ?_, rfl, ?_, hs, ?_, fun z hz => by cases hz⟩
  · rw [rootKey_eq]; exact hle.symm
  · unfold RootRecord.bytes
    rw [rootKey_eq, List.length_append, Int.natCast_add, hle]
    rfl
  · unfold RootRecord.bytes
    rw [rootKey_eq]
    refine Stored.append.2 ⟨hst _ (List.mem_cons_self ..), ?_⟩
    have h2 : Stored img (seek + kl n t c).toNat bs := hst _ (List.mem_cons_of_mem _ (List.mem_singleton.2 rfl))
    have e : (seek + kl n t c).toNat = seek.toNat +
        ((Key.at n t c cy bs.length (kl n t c) seek pdir false bs).enc packedNow).length := by omega
    rw [e] at h2
    exact h2

/-- The list of keys has the length its key says, if no class is called `TBasket`. -/
theorem Inv.keysBytes_length {path : Str} {f : FileW} (hi : Inv path f) (hb : ∀ k ∈ f.dir.keys, k.cls ≠ b! "TBasket") :
    ((keysBytes f.dir).length : Int) = keysLen f.dir := by
  have : ∀ l : List Key, (∀ k ∈ l, ((k.enc packedNow).length : Int) = k.keyLen) →
      ((l.flatMap fun k => k.enc packedNow).length : Int) = (l.map Key.keyLen).sum := by
    intro l
    induction l with
    | nil => intro _; rfl
    | cons k l ih =>
      intro h
      have h1 := ih fun k hk => h k (List.mem_cons_of_mem _ hk)
      have h2 := h k (List.mem_cons_self ..)
      simp only [List.flatMap_cons, List.length_append, List.map_cons, List.sum_cons, Int.natCast_add]
      omega
  have := this f.dir.keys fun k hk => by
    have hx : extra k.cls = 0 := by unfold extra; rw [if_neg (hb k hk)]
    have e := (hi.keys k hk).form
    have h1 := Key.at_enc_length k.name k.title k.cls k.cycle k.buffer.length k.seekKey 100 k.buffer
    rw [← e, hx, Int.sub_zero] at h1
    rw [h1]
    exact (congrArg Key.keyLen e).symm
  unfold keysBytes keysLen
  rw [List.length_append, Int.natCast_add, this, encI_length]
  rfl

section
variable {env : Env} {path : Str} {f f' : FileW} {s : List StreamerInfo} {i : Nat} {buf : List Byte}

/-- A closed file, as ROOT would describe it. -/
def closedRoot (env : Env) (path : Str) (f f' : FileW) (s : List StreamerInfo) (i : Nat) (buf : List Byte) : RootFile :=
  { big := false
    header := f'.header
    top := dirKey path
    topDate := packedNow
    names := encStr path ++ encStr []
    dir := (closedDir f).afterRead packedNow packedNow
    keyList := ⟨keysKey f f.dir, packedNow, keysBytes f.dir, none⟩
    keys := f.dir.keys.map fun k => (k, packedNow)
    free := ⟨freeKey (closing2 f s i buf), packedNow, FreeSegments.enc ⟨f'.header.end_, kStartBigFile⟩, none⟩
    segments := [⟨false, f'.header.end_, kStartBigFile⟩]
    info := ⟨infoKey (closing1 f) buf, packedNow, buf, none⟩
    infos := ⟨rootInfos env 0 s, none⟩ }

theorem closedRoot_headerBytes (hc : ClosedAs env path f f' s i buf) :
    (closedRoot env path f f' s i buf).headerBytes = f'.header.enc := by
  have hw := hc.narrow
  have hv : f'.header.writtenVersion = f'.header.version := by
    unfold FileHeader.writtenVersion
    rw [hw]
    rfl
  unfold RootFile.headerBytes FileHeader.enc
  rw [hv, hw]
  rfl

theorem closedRoot_dirBytes (hi : Inv path f) :
    (closedRoot env path f f' s i buf).dirBytes = (closedDir f).enc packedNow packedNow := by
  have hv : f.dir.rvers = 5 := by rw [hi.dir]; rfl
  have hbig : (closedDir f).isBig = false := hi.good.dirBig
  unfold RootFile.dirBytes Dir.enc
  rw [hbig]
  have e : (closedRoot env path f f' s i buf).dir.rvers = 5 := hv
  rw [e]
  have e2 : (closedDir f).rvers = 5 := hv
  rw [e2]
  rfl

theorem closedRoot_keyList (hi : Inv path f) (hc : ClosedAs env path f f' s i buf) (hb : f'.header.end_ ≤ kStartBigFile)
    (hu : utf8 path = true) (hp : dirKeyLen path + dirNameLen path ≤ 1000)
    (hcls : ∀ k ∈ f.dir.keys, k.cls ≠ b! "TBasket") (dec : Decoders) :
    (closedRoot env path f f' s i buf).keyList.In dec (image f'.trace) := by
  have hen := hc.ends hi
  obtain ⟨-, -, n3, n4, n5⟩ := hc.names hi
  have e1 := hc.end1
  have hl := hi.keysBytes_length hcls
  have hkey : keysKey f f.dir = Key.at path [] (b! "TDirectory") 1 (keysBytes f.dir).length
      (kl path [] (b! "TDirectory")) f.header.end_ 100 false (keysBytes f.dir) := by
    unfold keysKey
    rw [n3, n4, n5, hl]
  have hst : ∀ w ∈ (keysKey f f.dir).twoWrites ((keysKey f f.dir).enc packedNow),
      Stored (image f'.trace) w.pos w.data := fun w hw => hc.stored hi (Or.inl hw)
  unfold closedRoot
  rw [hkey] at hst ⊢
  exact Key.at_record (by omega) (by decide) (by decide) (by decide) (dirKeyLen_lt hp).2.2.2.1 hu (by decide) (by decide)
    (by decide) (by omega) hst

theorem closedRoot_free (hi : Inv path f) (hc : ClosedAs env path f f' s i buf) (hb : f'.header.end_ ≤ kStartBigFile)
    (hu : utf8 path = true) (hp : dirKeyLen path + dirNameLen path ≤ 1000) (dec : Decoders) :
    (closedRoot env path f f' s i buf).free.In dec (image f'.trace) := by
  have he := hc.ends hi
  obtain ⟨n1, n2, -, -, n5⟩ := hc.names hi
  have n5' : (closing2 f s i buf).dir.seekDir = 100 := n5
  have e3 := hc.end3
  have h10 : (FreeSegments.enc ⟨f'.header.end_, kStartBigFile⟩).length = 10 :=
    freeEnc_length _ _ (Int.le_refl _)
  have hk : freeKey (closing2 f s i buf) = Key.at path [] (b! "TFile") 1
      (FreeSegments.enc ⟨f'.header.end_, kStartBigFile⟩).length (kl path [] (b! "TFile"))
      (closing2 f s i buf).header.end_ 100 false (FreeSegments.enc ⟨f'.header.end_, kStartBigFile⟩) := by
    unfold freeKey
    rw [n1, n2, n5', h10, e3]
    rfl
  have hst : ∀ w ∈ (freeKey (closing2 f s i buf)).twoWrites ((freeKey (closing2 f s i buf)).enc packedNow),
      Stored (image f'.trace) w.pos w.data := fun w hw =>
    hc.stored hi (Or.inr (List.mem_append_right _ hw))
  unfold closedRoot
  rw [hk] at hst ⊢
  exact Key.at_record (by omega) (by decide) (by decide) (by decide) (dirKeyLen_lt hp).2.2.2.2 hu (by decide) (by decide)
    (by decide) (by rw [h10]; omega) hst

theorem closedRoot_info (hi : Inv path f) (hc : ClosedAs env path f f' s i buf) (hb : f'.header.end_ ≤ kStartBigFile)
    (dec : Decoders) : (closedRoot env path f f' s i buf).info.In dec (image f'.trace) := by
  have hen := hc.ends hi
  obtain ⟨-, -, -, -, n5⟩ := hc.names hi
  have n5' : (closing1 f).dir.seekDir = 100 := n5
  have e2 := hc.end2
  have hkey : infoKey (closing1 f) buf = Key.at infoName listTitle (b! "TList") 1 buf.length
      (kl infoName listTitle (b! "TList")) (closing1 f).header.end_ 100 false buf := by
    unfold infoKey
    rw [n5', asI4_nat hc.short]
  have hst : ∀ w ∈ (infoKey (closing1 f) buf).twoWrites ((infoKey (closing1 f) buf).enc packedNow),
      Stored (image f'.trace) w.pos w.data := fun w hw =>
    hc.stored hi (Or.inr (List.mem_append_left _ hw))
  unfold closedRoot
  rw [hkey] at hst ⊢
  have ekl : kl infoName listTitle (b! "TList") = infoKeyLen := rfl
  exact Key.at_record (by omega) (by decide) (by decide) (by decide) (by decide) (by decide) (by decide) (by decide)
    (by decide) (by omega) hst

theorem closedRoot_ok (hi : Inv path f) (hc : ClosedAs env path f f' s i buf) (hb : f'.header.end_ ≤ kStartBigFile)
    (hu : utf8 path = true) (hp : dirKeyLen path + dirNameLen path ≤ 1000) (hfit : KeysFit f)
    (hd : ∀ x ∈ s, x.Describable) (hsmall : f'.header.nBytesInfo < 2 ^ 30) :
    (closedRoot env path f f' s i buf).Ok := by
  have hen := hc.ends hi
  obtain ⟨n1, n2, n3, n4, n5⟩ := hc.names hi
  have hh := hc.header hi
  have e1 := hc.end1
  have e2 := hc.end2
  have e3 := hc.end3
  have hr := hc.range
  have hlo := hi.lo
  have hb' : f'.header.end_ ≤ 2000000000 := hb
  have v1 : f'.header.begin_ = 100 := by rw [hh]; rfl
  have v2 : f'.header.nBytesName = dirKeyLen path + dirNameLen path := by rw [hh]; rfl
  have v3 : f'.header.version = rversRoot := by rw [hh]; rfl
  have v4 : f'.header.seekInfo = (closing1 f).header.end_ := by rw [hh]
  have v5 : f'.header.nBytesInfo = infoKeyLen + buf.length := by rw [hh]
  have v6 : f'.header.seekFree = (closing2 f s i buf).header.end_ := by rw [hh]
  have v7 : f'.header.nBytesFree = kl path [] (b! "TFile") + 10 := by rw [hh]
  have hnb : f.dir.nBytesName = dirKeyLen path + dirNameLen path := by rw [hi.dir]; rfl
  have hdp : dirPos path = 100 + (dirKeyLen path + dirNameLen path) := rfl
  have hkl : (((dirKey path).enc packedNow).length : Int) = dirKeyLen path :=
    (Key.at_enc_length path [] (b! "TFile") 1 (dirNameLen path + 60) 100 0
      (dirPayload path (createdDir path))).trans (Int.sub_zero _)
  have hnl : ((encStr path ++ encStr []).length : Int) = dirNameLen path := by
    unfold dirNameLen
    rw [tstringSizeof_eq, tstringSizeof_eq, List.length_append, Int.natCast_add]
  have hcl : ((closedDir f).enc packedNow packedNow).length = 48 := (dirWrite_eq hi).2
  obtain ⟨k1, k2, k3, k4, k5⟩ := dirKeyLen_lt hp
  have hfew := hi.few_keys
  have hroom : (closedRoot env path f f' s i buf).dirRoom = 60 := by
    unfold RootFile.dirRoom
    show (if 40000 ≤ f'.header.version then (60 : Int) else 48) = 60
    rw [v3]; rfl
  obtain ⟨r1, r2, r3, r4, r5, r6, r7, r8, r9, r10, r11, r12, r13, r14, r15, r16, r17⟩ := hr
  have h4 : InSeek false = InI 4 := rfl
  refine {
    version := ?_, begin_ := ?_, end_ := ?_, seekFree := ?_, nBytesFree := r6, nFree := r7, units := r9
    compression := r10, seekInfo := ?_, nBytesInfo := r12, uuid := r13, top := ?_, topDate := packedNow_lt
    dir := hc.dir_inRange hi hb, ctime := packedNow_lt, mtime := packedNow_lt, dirRoom := ?_, nBytesName := ?_
    sameName := ?_, nameFits := r8, room := ?_, seekKeys := ?_, nBytesKeys := ?_, listed := ?_, listPlain := rfl
    keys := ?_, few := ?_, freeAt := ?_, freeBytes := ?_, segments := ?_, segmentsFit := ?_, infoAt := ?_
    infoBytes := ?_, infoClass := rfl, infos := ?_, infosFit := ?_ }
  · refine ⟨?_, r2⟩
    show 0 < f'.header.version
    rw [v3]; decide
  · refine ⟨?_, r3⟩
    show 0 ≤ f'.header.begin_
    rw [v1]; decide
  · show InI 4 f'.header.end_
    exact inI4_of_small (by omega) hb
  · show InI 4 f'.header.seekFree
    exact inI4_of_small (by omega) (by omega)
  · show InI 4 f'.header.seekInfo
    exact inI4_of_small (by omega) (by omega)
  · exact Key.at_inRange (by omega) (by decide) (by show (100 : Int) + (dirKeyLen path + _) ≤ _; omega) (by decide)
      (by decide) (by decide) k5 hu (by decide) (by decide)
  · rw [hroom, closedRoot_dirBytes hi, hcl]; decide
  · show f'.header.nBytesName = ((rootKey (dirKey path) packedNow).length : Int) + ((encStr path ++ encStr []).length : Int)
    rw [rootKey_eq, hkl, hnl, v2]
  · show f.dir.nBytesName = f'.header.nBytesName
    rw [hnb, v2]
  · rw [hroom]
    show f'.header.begin_ + f'.header.nBytesName + 60 ≤ f'.header.end_
    omega
  · exact ⟨rfl, by show 0 < f.header.end_; omega⟩
  · rfl
  · show keysBytes f.dir = bigEndian 4 (f.dir.keys.map _).length ++ (f.dir.keys.map _).flatMap _
    rw [List.length_map, List.flatMap_map]
    unfold keysBytes
    have : (fun k : Key => k.enc packedNow) = fun k => rootKey k packedNow := by
      funext k; rw [rootKey_eq]
    rw [this]
    rfl
  · intro k hk
    obtain ⟨q, hq, rfl⟩ := List.mem_map.1 hk
    exact ⟨(hi.keys q hq).inRange hi.good.hi (hfit q hq), packedNow_lt⟩
  · show (f.dir.keys.map _).length < _
    rw [List.length_map]
    have : 26 ≤ kl path [] (b! "TDirectory") := (keyLenFor_ge _ _ _ false false).1
    omega
  · exact ⟨v6, by show 0 < f'.header.seekFree; omega⟩
  · show f'.header.nBytesFree = kl (closing2 f s i buf).dir.name (closing2 f s i buf).dir.title (b! "TFile") + 10
    rw [n1, n2, v7]
  · show FreeSegments.enc _ = List.flatMap _ [_]
    rw [List.flatMap_cons, List.flatMap_nil, List.append_nil]
    rfl
  · intro x hx
    have hx : x = ⟨false, f'.header.end_, kStartBigFile⟩ := List.mem_singleton.1 hx
    subst hx
    exact ⟨inI4_of_small (by show 0 ≤ f'.header.end_; omega) hb, by show InI 4 kStartBigFile; decide⟩
  · exact ⟨v4, by show 0 < f'.header.seekInfo; omega, by show f'.header.seekInfo < f'.header.end_; omega⟩
  · show f'.header.nBytesInfo = infoKeyLen + asI 4 buf.length
    rw [asI4_nat hc.short, v5]
  · obtain ⟨n, w, m1, m2⟩ := hc.infos
    exact ⟨n, w, rootInfos_write hd _ _ m1, m2⟩
  · show infoKeyLen.toNat + buf.length < 2 ^ 30
    have : 0 ≤ infoKeyLen := by decide
    omega

theorem closedRoot_in (hi : Inv path f) (hc : ClosedAs env path f f' s i buf) (hb : f'.header.end_ ≤ kStartBigFile)
    (hu : utf8 path = true) (hp : dirKeyLen path + dirNameLen path ≤ 1000)
    (hcls : ∀ k ∈ f.dir.keys, k.cls ≠ b! "TBasket") (dec : Decoders) :
    (closedRoot env path f f' s i buf).In dec (image f'.trace) := by
  have hen := hc.ends hi
  have hlen := hc.image_length hi
  have hh := hc.header hi
  have v1 : f'.header.begin_ = 100 := by rw [hh]; rfl
  refine ⟨?_, hlen, by omega, ?_, closedRoot_keyList hi hc hb hu hp hcls dec, closedRoot_free hi hc hb hu hp dec,
    closedRoot_info hi hc hb dec⟩
  · rw [closedRoot_headerBytes hc]
    exact hc.stored_header
  · rw [closedRoot_dirBytes hi]
    show _ <+: (image f'.trace).drop f'.header.begin_.toNat
    rw [v1]
    have := hc.stored_dir hi
    show rootKey (dirKey path) packedNow ++ ((encStr path ++ encStr []) ++ _) <+: _
    rw [rootKey_eq, List.append_assoc]
    exact this

end

end Verif
