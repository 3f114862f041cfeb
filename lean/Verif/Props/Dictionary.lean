import Verif.Props.Reopen
import Verif.Spec.Dictionary
import Verif.Lemmas.DictionaryClosed
import Verif.Lemmas.TreeOpened
import Verif.Props.TreeSession
/-
C48 (the bundled dictionary), C49 (a file describes every class it uses).  `Props.TreeSession` is
imported only so that the two modules, which need much memory, are not checked at the same time.
-/
namespace Verif

attribute [local irreducible] bundledList bundledRecords

theorem bundledEnv_db (addr : Nat → Nat) (n : Str) (v : Int) : (bundledEnv addr).db n v = bundledDb n v := rfl

/-- C48: every record of the bundled dictionary can be written and read back (C41), in every process. -/
theorem C48_storable (addr : Nat → Nat) (ha : ∀ i j, addr i = addr j → i = j) : (bundledEnv addr).Sound :=
  ⟨fun n v s h => by
    rw [bundledEnv_db] at h
    exact StreamerInfo.check_sound (List.all_eq_true.1 bundled_check s (bundledDb_mem h)), ha⟩

example : (bundledEnv fun i => 1000000 + i).Sound := C48_storable _ (by intro i j h; omega)

/-- C48: the table is well formed (building it does not abort) and no class is in it twice. -/
theorem C48_table : ∃ rs, bundledRecords = .ok rs ∧ (rs.map StreamerInfo.name).Nodup ∧ rs.length = 85 :=
  ⟨_, bundled_ok, bundled_plain.nodup, by decide +kernel⟩

/-- C48: a record is found exactly under its own name and version, or under its name alone when any
version is asked for. -/
theorem C48_found (name : Str) (vers : Int) (s : StreamerInfo) {rs : List StreamerInfo}
    (hr : bundledRecords = .ok rs) :
    bundledDb name vers = some s ↔ s ∈ rs ∧ s.name = name ∧ (0 < vers → s.clsver = vers) := by
  rw [bundled_ok] at hr
  injection hr with hr
  subst hr
  rw [bundledDb_eq]
  exact findRecord_iff bundled_plain

/-- C48: the order in which the hash map happens to give its keys does not matter. -/
theorem C48_order (name : Str) (vers : Int) {rs rs' : List StreamerInfo} (hr : bundledRecords = .ok rs)
    (hp : rs'.Perm rs) : findRecord rs' name vers = bundledDb name vers := by
  rw [bundled_ok] at hr
  injection hr with hr
  subst hr
  rw [bundledDb_eq]
  exact findRecord_perm bundled_plain hp name vers

example : ∃ s, bundledDb (b! "TBranch") (-1) = some s ∧ s.clsver = 13 ∧ bundledDb (b! "TBranch") 13 = some s ∧
    bundledDb (b! "TBranch") 12 = none := by
  obtain ⟨rs, hr, -⟩ := C48_table
  have h : ((bundledDb (b! "TBranch") (-1)).map fun s => (s.name, s.clsver)) = some (b! "TBranch", 13) := by
    decide +kernel
  cases hs : bundledDb (b! "TBranch") (-1) with
  | none => rw [hs] at h; cases h
  | some s =>
    rw [hs] at h
    injection h with h
    injection h with h1 h2
    refine ⟨s, rfl, h2, (C48_found _ _ _ hr).2 ⟨((C48_found _ _ _ hr).1 hs).1, h1, fun _ => h2⟩, ?_⟩
    cases hx : bundledDb (b! "TBranch") 12 with
    | none => rfl
    | some x =>
      have h3 := (C48_found _ _ _ hr).1 hx
      have h4 := (C48_found (b! "TBranch") (-1) x hr).2 ⟨h3.1, h3.2.1, fun h => by cases h⟩
      rw [hs] at h4
      injection h4 with h4
      have := h3.2.2 (by decide)
      rw [← h4, h2] at this
      cases this

/-! ### The classes a file describes -/

/-- `Streamer.Follows`, computed. -/
def Streamer.followsB (e : Streamer) : Bool := match e.dep with
  | .ok (some d) => coreTypes.contains d.1 || cxxBuiltins.contains d.1 ||
      (!decide (e.element.ename = b! "TVirtualIndex" ∨ e.element.ename = b! "TVirtualIndex*") &&
        decide (e.next = some d.1))
  | _ => true

theorem Streamer.followsB_sound {e : Streamer} (h : e.followsB = true) : e.Follows := by
  intro d hd
  unfold Streamer.followsB at h
  rw [hd] at h
  simp only [Bool.or_eq_true, List.contains_iff_mem, Bool.and_eq_true, Bool.not_eq_true', decide_eq_false_iff_not,
    decide_eq_true_eq] at h
  rcases h with (h | h) | h
  · exact .inl h
  · exact .inr (.inl h)
  · exact .inr (.inr h)

theorem bundled_follows : bundledList.all (fun s => s.elems.all Streamer.followsB) = true := by decide +kernel

theorem bundledDb_follows {n : Str} {v : Int} {s : StreamerInfo} (h : bundledDb n v = some s) :
    ∀ e ∈ s.elems, e.Follows := fun e he =>
  Streamer.followsB_sound (List.all_eq_true.1 (List.all_eq_true.1 bundled_follows s (bundledDb_mem h)) e he)

theorem makeVector_follows {t : Ty} {si : StreamerInfo} (h : makeVectorStreamer t = .ok si) :
    ∀ e ∈ si.elems, e.Follows := by
  unfold makeVectorStreamer at h
  obtain ⟨c, hc, h⟩ := Res.ok_bind.1 h
  cases t <;> cases h <;> cases hc <;> intro e he <;>
    (obtain rfl := List.mem_singleton.1 he; exact Streamer.followsB_sound (by decide +kernel))

theorem trimStars_one {n : Str} (h : (42 : Byte) ∉ n) : trimStars (n ++ b! "*") = n := by
  unfold trimStars
  rw [List.reverse_append]
  show (List.dropWhile _ (42 :: n.reverse)).reverse = n
  rw [List.dropWhile_cons_of_pos (by decide)]
  cases hr : n.reverse with
  | nil => rw [List.reverse_eq_nil_iff.1 hr]; rfl
  | cons x l =>
    rw [List.dropWhile_cons_of_neg, ← hr, List.reverse_reverse]
    intro hx
    have hx : x = 42 := by simpa using hx
    exact h (by rw [← List.mem_reverse, hr, hx]; exact List.mem_cons_self ..)

theorem captureVector_word {w : Str} (h0 : w ≠ []) (h : ∀ x ∈ w, isWordByte x = true) :
    captureVector (b! "vector<" ++ w ++ b! ">") = some w := by
  have e : (w ++ b! ">").takeWhile isWordByte = w := by
    rw [List.takeWhile_append_of_pos h]
    show w ++ (List.takeWhile isWordByte [62]) = w
    rw [show List.takeWhile isWordByte [62] = [] from rfl, List.append_nil]
  show captureVector (118 :: 101 :: 99 :: 116 :: 111 :: 114 :: 60 :: (w ++ b! ">")) = _
  unfold captureVector
  rw [if_pos (by rfl)]
  show (match vectorWord (w ++ b! ">") with | some w => some w | none => _) = _
  have : vectorWord (w ++ b! ">") = some w := by
    unfold vectorWord
    rw [e, if_pos ⟨h0, by rw [List.drop_left]; rfl⟩]
  rw [this]

theorem RefersTo.dep {e : Streamer} {n : Str} (h : RefersTo e n) : ∃ v, e.dep = .ok (some (n, v)) := by
  cases h with
  | base e v => exact ⟨_, rfl⟩
  | object e => exact ⟨_, rfl⟩
  | objectAny e => exact ⟨_, rfl⟩
  | pointer e n h1 h2 =>
    refine ⟨-1, ?_⟩
    show Except.ok (some (trimStars e.ename, (-1 : Int))) = _
    rw [h1, trimStars_one h2]
  | vector e c w h1 h2 h3 =>
    refine ⟨-1, ?_⟩
    unfold Streamer.dep
    dsimp only
    rw [if_pos rfl, h1, captureVector_word h2 h3]

theorem RefersTo.expected {e : Streamer} {n : Str} (h : RefersTo e.expected n) : RefersTo e n := by
  cases e with
  | string e => cases h
  | stlString e => cases h
  | basicType e => cases h
  | basicPointer e => cases h
  | objectAny e => cases h; exact .objectAny e
  | object e => cases h; exact .object e
  | base e v => cases h; exact .base e v
  | objectPointer e => cases h with | pointer _ n h1 h2 => exact .pointer e n h1 h2
  | stl e v c => cases h with | vector _ _ _ h1 h2 h3 => exact .vector e c n h1 h2 h3

theorem step_described {env : Env} {path : Str} {op : Op} {r : Res Unit} {f f' : FileW} (hi : Inv path f)
    (hn : ∀ n v s, env.db n v = some s → s.name = n) (h : op.run env f = (r, f'))
    (hr : r ≠ .error .panic) (hb : f'.Below2GB) :
    (∀ p ∈ op.accepted env f, InRecords f'.sinfos p.2.cls) ∧
      ∀ n, (∃ s ∈ f.sinfos, s.name = n) → ∃ s ∈ f'.sinfos, s.name = n := by
  have ann : ∀ {obj g}, Announced env obj f g → InRecords g.sinfos obj.cls ∧
      ∀ n, (∃ s ∈ f.sinfos, s.name = n) → ∃ s ∈ g.sinfos, s.name = n := by
    intro obj g ha
    cases ha with
    | core hc => exact ⟨.inl hc, fun n h => h⟩
    | found _ hl =>
      obtain ⟨s, hs, rfl, -⟩ := lookup_ok hl
      exact ⟨.inr (.inr (addInfo_name (.inr (show s.name = obj.cls from hn _ _ _ hs)))), fun n h => addInfo_name (.inl h)⟩
  cases op with
  | put name obj =>
    unfold Op.accepted
    rw [h]
    rcases r with (x | x) | u
    · refine ⟨(fun p h => by cases h), ?_⟩
      rcases put_err hi.good h with rfl | ha
      · exact fun n h => h
      · exact (ann ha).2
    · exact absurd rfl hr
    · obtain ⟨-, c, f1, m, w, -, ha, -, -, -, rfl⟩ := put_ok hi.good h
      refine ⟨fun p hp => ?_, (ann ha).2⟩
      rw [List.mem_singleton.1 hp]
      exact (ann ha).1
  | basket b =>
    refine ⟨(fun p h => by cases h), ?_⟩
    simp only [Op.run] at h
    generalize hw : b.writeToFile f = x at h
    obtain ⟨(e | e) | ⟨b', n, m⟩, f1⟩ := x
    · exact absurd hw (WBasket.writeToFile_err hi.good)
    · cases h; exact absurd rfl hr
    · cases h
      obtain ⟨-, w, -, -, ht, -⟩ := basket_inv hi hw hb
      rw [ht]; exact fun n h => h
  | register si =>
    refine ⟨(fun p h => by cases h), ?_⟩
    simp only [Op.run] at h
    rw [registerInfo_eq] at h
    cases h
    exact fun n h => addInfo_name (.inl h)

theorem accepted_described {env : Env} {path : Str} {ops : List Op} {f0 f : FileW} (hi : Inv path f0)
    (hn : ∀ n v s, env.db n v = some s → s.name = n) (h : Runs env f0 ops f) :
    ∀ p ∈ acceptedPuts env f0 ops, InRecords f.sinfos p.2.cls := by
  induction h with
  | nil => intro p hp; cases hp
  | @snoc ops g op r g' h1 h2 h3 h4 ih =>
    obtain ⟨a1, a2⟩ := step_described (runs_inv hi h1) hn h2 h3 h4
    intro p hp
    rw [acceptedPuts_snoc, ← h1.end_eq] at hp
    rcases List.mem_append.1 hp with hp | hp
    · rcases ih p hp with h | h | h
      · exact .inl h
      · exact .inr (.inl h)
      · exact .inr (.inr (a2 _ h))
    · exact a1 p hp

/-- C49: a file made with the bundled dictionary, filled by any calls and closed, opens with a class
record for the class of every object stored in it, and for every class these records refer to, and so on. -/
theorem C49_closed {addr : Nat → Nat} {path : Str} {ids : Nat} {ops : List Op} {f0 f f' : FileW}
    (hw : Written (bundledEnv addr) path ids ops f0 f f') (hh : Holds (bundledEnv addr) path ops f0 f')
    (hv : OnlyVectors ops) (dec : Decoders) (fuel : Nat) (hfuel : 3 ≤ fuel) :
    ∃ r, openFile dec fuel (image f'.trace) = .ok r ∧ Closed r.sinfos ∧
      ∀ p ∈ acceptedPuts (bundledEnv addr) f0 ops, BuiltIn p.2.cls ∨ ∃ s ∈ r.sinfos, s.name = p.2.cls := by
  obtain ⟨hi0, hk0, hi, hfit, s, i, buf, hc, hko, es, ei, hop⟩ := hw.opened hh
  refine ⟨_, hop dec fuel hfuel, ?_⟩
  obtain ⟨rs, hrs, -⟩ := C48_table
  have hn : ∀ n v s, (bundledEnv addr).db n v = some s → s.name = n := by
    intro n v s h
    rw [bundledEnv_db] at h
    exact ((C48_found n v s hrs).1 h).2.1
  have hf : ∀ s ∈ f.sinfos, ∀ e ∈ s.elems, e.Follows := by
    refine runs_all (P := fun s => ∀ e ∈ s.elems, e.Follows) ?_ ?_ ?_ hi0 hw.runs ?_
    · intro s n m hs e he
      obtain ⟨y, hy, k, rfl⟩ := mem_cloneElems (show e ∈ cloneElems n s.elems from he)
      exact (hs y hy).withId k
    · intro n v s h
      rw [bundledEnv_db] at h
      exact bundledDb_follows h
    · intro si hsi
      obtain ⟨t, ht⟩ := hv si hsi
      exact makeVector_follows ht
    · obtain ⟨rfl, -⟩ := create_ok hw.create hw.small.end_
      intro x hx
      cases hx
  have hko0 : InfosOk f.sinfos f.ids := by
    obtain ⟨rfl, -⟩ := create_ok hw.create hw.small.end_
    exact runs_infosOk hh.process hh.records hi0 hw.runs (InfosOk.nil _)
  obtain ⟨hcl, hnm⟩ := findDeep_closed (fun n v s h => by
    rw [bundledEnv_db] at h
    exact bundledDb_follows h) hn (by
      intro n v s s' h h'
      rw [bundledEnv_db] at h h'
      obtain ⟨a1, a2, -⟩ := (C48_found n v s hrs).1 h
      rw [(C48_found n (-1) s hrs).2 ⟨a1, a2, fun h => by cases h⟩] at h'
      injection h') hc.deps hf hko0
  have back : ∀ {n}, (∃ x ∈ s, x.name = n) → ∃ x ∈ (f'.sinfos.map StreamerInfo.expected).reverse, x.name = n := by
    rintro n ⟨x, hx, rfl⟩
    exact ⟨x.expected, List.mem_reverse.2 (List.mem_map.2 ⟨x, by rw [es]; exact hx, rfl⟩), rfl⟩
  have known : ∀ {n}, InRecords s n → BuiltIn n ∨
      ∃ x ∈ (f'.sinfos.map StreamerInfo.expected).reverse, x.name = n := by
    rintro n (h | h | h)
    · exact .inl (.inl h)
    · exact .inl (.inr h)
    · exact .inr (back h)
  refine ⟨?_, fun p hp => ?_⟩
  · intro x hx e he n hr
    obtain ⟨y, hy, rfl⟩ := List.mem_map.1 (List.mem_reverse.1 hx)
    obtain ⟨e', he', rfl⟩ := List.mem_map.1 (show e ∈ y.elems.map Streamer.expected from he)
    obtain ⟨v, hd⟩ := hr.expected.dep
    exact known (hcl y (by rw [← es]; exact hy) e' he' _ hd)
  · rcases accepted_described hi0 hn hw.runs p hp with h | h | ⟨x, hx, h⟩
    · exact .inl (.inl h)
    · exact .inl (.inr h)
    · obtain ⟨y, hy, e⟩ := hnm x hx
      exact .inr (back ⟨y, hy, by rw [e, h]⟩)

/-! ### The hypotheses can be met -/

/-- A process with the bundled dictionary. -/
def hashEnv : Env := bundledEnv fun i => 1000000 + i

/-- An object of class `THashList` is stored, a vector of integers is announced. -/
def hashOps : List Op :=
  [.put (b! "x") { cls := b! "THashList", vers := 0, title := [], name := b! "x", marshal := Wr.counted (Wr.i32 5) },
   .register { named := { name := b! "vector<int32_t>" },
               elems := [.stl { named := { name := b! "vector<int32_t>" }, etype := .named .streamer, esize := 24,
                                ename := b! "vector<int32_t>" } .vector (.named .int)] }]

def hashNew : FileW := (createFile (FileW.initial (b! "d.root") 10)).2
def hashOpen : FileW := hashOps.foldl (fun f op => (op.run hashEnv f).2) hashNew
def hashClosed : FileW := (closeFile hashEnv hashOpen).2

theorem hash_checks : (isOk (createFile (FileW.initial (b! "d.root") 10)).1 && below2GB hashNew &&
    runsOk hashEnv hashNew hashOps && isOk (closeFile hashEnv hashOpen).1 && below2GB hashClosed &&
    ((acceptedPuts hashEnv hashNew hashOps).all fun p =>
      utf8 p.1 && utf8 p.2.title && utf8 p.2.cls &&
        decide (p.1.length + p.2.title.length + p.2.cls.length ≤ 32700)) &&
    decide (hashClosed.header.nBytesInfo < 2 ^ 30) && decide (hashClosed.sinfos.length < 2 ^ 31) &&
    decide (hashClosed.ids ≤ 1000000) &&
    decide (hashClosed.sinfos.map StreamerInfo.name = [b! "THashList", b! "vector<int32_t>", b! "TList",
      b! "TSeqCollection", b! "TCollection"]) &&
    (acceptedPuts hashEnv hashNew hashOps).map (fun p => p.2.cls) == [b! "THashList"]) = true := by
  decide +kernel

theorem hash_vectors : OnlyVectors hashOps := by
  intro si h
  rcases List.mem_cons.1 h with h | h
  · cases h
  · rcases List.mem_cons.1 h with h | h
    · injection h with h
      exact ⟨.i32, by rw [h]; rfl⟩
    · cases h

example (dec : Decoders) : ∃ r, openFile dec 3 (image hashClosed.trace) = .ok r ∧ Closed r.sinfos ∧
    ∃ s ∈ r.sinfos, s.name = b! "THashList" := by
  have hc := hash_checks
  simp only [Bool.and_eq_true, decide_eq_true_eq, beq_iff_eq] at hc
  obtain ⟨⟨⟨⟨⟨⟨⟨⟨⟨⟨h1, h2⟩, h3⟩, h4⟩, h5⟩, h6⟩, h7⟩, h8⟩, h9⟩, -⟩, h11⟩ := hc
  have hw : Written hashEnv (b! "d.root") 10 hashOps hashNew hashOpen hashClosed :=
    ⟨ok_pair h1, below2GB_iff.1 h2, runs_of_check h3, ok_pair h4, below2GB_iff.1 h5⟩
  have hs := C48_storable (fun i => 1000000 + i) (by intro i j h; omega)
  have hh : Holds hashEnv (b! "d.root") hashOps hashNew hashClosed := {
    process := hs
    text := by decide
    short := by decide
    objects := fun p hp => by
      have := List.all_eq_true.1 h6 p hp
      simp only [Bool.and_eq_true, decide_eq_true_eq] at this
      exact ⟨this.1.1.1, this.1.1.2, this.1.2, this.2⟩
    records := by
      intro op hop
      cases op with
      | register si =>
        obtain ⟨t, ht⟩ := hash_vectors si hop
        exact makeVector_describable ht
      | _ => trivial
    listBytes := h7
    listLength := h8
    apart := by
      intro j
      show _ ≤ 1000000 + j
      omega }
  obtain ⟨r, o, c, d⟩ := C49_closed hw hh hash_vectors dec 3 (Nat.le_refl _)
  refine ⟨r, o, c, ?_⟩
  obtain ⟨p, hp, hpc⟩ : ∃ p ∈ acceptedPuts hashEnv hashNew hashOps, p.2.cls = b! "THashList" := by
    have : b! "THashList" ∈ (acceptedPuts hashEnv hashNew hashOps).map (fun p => p.2.cls) := by
      rw [h11]; exact List.mem_singleton.2 rfl
    exact List.mem_map.1 this
  rcases d p hp with h | h
  · rw [hpc] at h
    rcases h with h | h <;> exact absurd h (by decide)
  · rw [hpc] at h; exact h

end Verif
