import Verif.Lemmas.Layout
import Verif.Spec.Layout
import Verif.Spec.Demo
/-
C13 (space is never handed out twice), C14 (later writes never corrupt earlier data).
-/
namespace Verif

theorem disjoint_of_le {a b : DiskWrite} (h : a.pos + a.data.length ≤ b.pos) : a.Disjoint b := by
  intro p hp; omega

theorem DiskWrite.Disjoint.symm {a b : DiskWrite} (h : a.Disjoint b) : b.Disjoint a := by
  intro p hp; exact h p ⟨hp.2.2.1, hp.2.2.2, hp.1, hp.2.1⟩

theorem zeros_inHeader : (⟨0, List.replicate 100 0⟩ : DiskWrite).InHeader := by
  constructor
  · decide
  · simp

theorem header_inHeader {h : FileHeader} (hr : h.InRange) : (⟨0, h.enc⟩ : DiskWrite).InHeader := by
  constructor
  · exact Int.le_refl _
  · have := FileHeader.enc_length hr
    show ((0 : Nat) : Int) + _ ≤ _
    split at this <;> simp only [this] <;> decide

theorem pairwise_headers {h1 h2 : DiskWrite} {ws : List DiskWrite} {hi : Int} (i1 : h1.InHeader)
    (i2 : h2.InHeader) (hp : Placed 100 ws hi) :
    ([h1, h2] ++ ws).Pairwise fun a b => a.InHeader ∧ b.InHeader ∨ a.Disjoint b := by
  have far : ∀ a : DiskWrite, a.InHeader → ∀ b ∈ ws, a.Disjoint b := fun a ha b hb => by
    have := (hp.mem hb).1
    have := ha.2
    exact disjoint_of_le (by omega)
  refine .cons (fun b hb => ?_) (.cons (fun b hb => Or.inr (far _ i2 b hb)) ?_)
  · rcases List.mem_cons.1 hb with rfl | hb
    · exact Or.inl ⟨i1, i2⟩
    · exact Or.inr (far _ i1 b hb)
  · exact hp.pairwise.imp fun h => Or.inr (disjoint_of_le h)

/-- C13, while the file is open: everything written lies in the header area or between byte 100 and
the recorded end, and no byte outside the header area is written twice.  The extents declared by the
keys of the directory follow each other, too. -/
theorem C13_open {env : Env} {path : Str} {ops : List Op} {f : FileW} (h : Session env path ops f) :
    (∀ w ∈ f.trace, w.InHeader ∨ w.Within 100 f.header.end_) ∧
    f.trace.Pairwise (fun a b => a.InHeader ∧ b.InHeader ∨ a.Disjoint b) ∧
    (∀ k ∈ f.dir.keys, f.bodyStart ≤ k.seekKey ∧ k.seekKey + k.nBytes ≤ f.header.end_) ∧
    f.dir.keys.Pairwise (fun a b => a.seekKey + a.nBytes ≤ b.seekKey) := by
  have hi := session_inv h
  obtain ⟨ws, t, p, q⟩ := hi.records
  have hr := (createdHeader_inRange (path := path) (by
    have := hi.lo; have := hi.good.hi; omega)).1
  refine ⟨?_, ?_, ?_, hi.order⟩
  · intro w hw
    rw [t] at hw
    rcases List.mem_append.1 hw with hw | hw
    · left
      simp only [List.mem_cons, List.not_mem_nil, or_false] at hw
      rcases hw with rfl | rfl
      · exact zeros_inHeader
      · exact header_inHeader hr
    · exact Or.inr (q.mem hw)
  · rw [t]
    exact pairwise_headers zeros_inHeader (header_inHeader hr) q
  · intro k hk
    have := hi.keys k hk
    rw [this.nBytes]
    refine ⟨?_, this.hi⟩
    unfold FileW.bodyStart
    rw [hi.hdr]
    exact this.lo


theorem pairwise_headers' {h1 h2 h3 h4 : DiskWrite} {ws : List DiskWrite} {hi : Int} (i1 : h1.InHeader)
    (i2 : h2.InHeader) (i3 : h3.InHeader) (i4 : h4.InHeader) (hp : Placed 100 ws hi) :
    ([h1, h2] ++ ws ++ [h3, h4]).Pairwise fun a b => a.InHeader ∧ b.InHeader ∨ a.Disjoint b := by
  rw [List.pairwise_append]
  refine ⟨pairwise_headers i1 i2 hp, ?_, fun a ha b hb => ?_⟩
  · exact .cons (fun b hb => Or.inl ⟨i3, by rw [List.mem_singleton.1 hb]; exact i4⟩)
      (List.pairwise_singleton _ _)
  · have hb' : b.InHeader := by
      simp only [List.mem_cons, List.not_mem_nil, or_false] at hb
      rcases hb with rfl | rfl <;> assumption
    rcases List.mem_append.1 ha with ha | ha
    · have ha' : a.InHeader := by
        simp only [List.mem_cons, List.not_mem_nil, or_false] at ha
        rcases ha with rfl | rfl <;> assumption
      exact Or.inl ⟨ha', hb'⟩
    · have := (hp.mem ha).1
      have := hb'.2
      exact Or.inr (DiskWrite.Disjoint.symm (disjoint_of_le (by omega)))

/-- C13, once the file is closed: the same holds, except that the directory record, and nothing else,
has been written a second time, at the place it had. -/
theorem C13_closed {env : Env} {path : Str} {ops : List Op} {f f' : FileW}
    (h : Session env path ops f) (hc : Closes env f f') :
    ∃ pre d post, f'.trace = pre ++ d :: post ∧ f.trace <+: pre ∧
      (∀ w ∈ pre ++ post, w.InHeader ∨ w.Within 100 f'.header.end_) ∧
      (pre ++ post).Pairwise (fun a b => a.InHeader ∧ b.InHeader ∨ a.Disjoint b) ∧
      d.Within (f.header.begin_ + f.header.nBytesName) f.bodyStart ∧
      (∀ w ∈ pre ++ post, d.Disjoint w ∨ w ∈ f.trace.take 4) := by
  have hi := session_inv h
  obtain ⟨s, i, buf, ca⟩ := hi.close hc
  obtain ⟨ws, t, p, q⟩ := hi.records
  have hr := (createdHeader_inRange (path := path) (by
    have := hi.lo; have := hi.good.hi; omega)).1
  have hr' := ca.range
  have pl := ca.placed hi
  have hd := dirPos_ge path
  obtain ⟨d1, d2⟩ := dirWrite_eq hi
  have e1 : f.header.begin_ + f.header.nBytesName = dirPos path := by rw [hi.hdr]; rfl
  rw [ca.file] at hr' pl ⊢
  have ih2 : (⟨0, (closing3 f s i buf).header.oneFree.enc⟩ : DiskWrite).InHeader :=
    header_inHeader hr'
  have all : f.trace ++ (closingRecords f s i buf).1 ++ ((closingRecords f s i buf).2 ++
      [⟨0, List.replicate 100 0⟩, ⟨0, (closing3 f s i buf).header.oneFree.enc⟩]) =
      [⟨0, List.replicate 100 0⟩, ⟨0, (createdHeader path).enc⟩] ++
      (((dirKey path).twoWrites ((dirKey path).enc packedNow) ++ ws) ++
       ((closingRecords f s i buf).1 ++ (closingRecords f s i buf).2)) ++
      [⟨0, List.replicate 100 0⟩, ⟨0, (closing3 f s i buf).header.oneFree.enc⟩] := by
    rw [t]; simp only [List.append_assoc]
  have pall := q.append pl
  refine ⟨f.trace ++ (closingRecords f s i buf).1, dirWrite f, (closingRecords f s i buf).2 ++
      [⟨0, List.replicate 100 0⟩, ⟨0, (closing3 f s i buf).header.oneFree.enc⟩], ?_,
      List.prefix_append _ _, ?_, ?_, ?_, ?_⟩
  · rw [closedFile_trace]
    simp
  · intro w hw
    rw [all] at hw
    rcases List.mem_append.1 hw with hw | hw
    · rcases List.mem_append.1 hw with hw | hw
      · simp only [List.mem_cons, List.not_mem_nil, or_false] at hw
        rcases hw with rfl | rfl
        · exact Or.inl zeros_inHeader
        · exact Or.inl (header_inHeader hr)
      · exact Or.inr (pall.mem hw)
    · simp only [List.mem_cons, List.not_mem_nil, or_false] at hw
      rcases hw with rfl | rfl
      · exact Or.inl zeros_inHeader
      · exact Or.inl ih2
  · rw [all]
    exact pairwise_headers' zeros_inHeader (header_inHeader hr) zeros_inHeader ih2 pall
  · unfold FileW.bodyStart
    rw [e1]
    constructor <;> omega
  · intro w hw
    rw [all] at hw
    have hdr : w.InHeader → (dirWrite f).Disjoint w := fun hw => by
      have := hw.2
      exact DiskWrite.Disjoint.symm (disjoint_of_le (by omega))
    rcases List.mem_append.1 hw with hw | hw
    · rcases List.mem_append.1 hw with hw | hw
      · simp only [List.mem_cons, List.not_mem_nil, or_false] at hw
        rcases hw with rfl | rfl
        · exact Or.inl (hdr zeros_inHeader)
        · exact Or.inl (hdr (header_inHeader hr))
      · rw [List.append_assoc] at hw
        rcases List.mem_append.1 hw with hw | hw
        · right
          rw [t]
          refine List.mem_append_right [_, _] ?_
          exact hw
        · left
          have := ((p.append pl).mem hw).1
          exact disjoint_of_le (by omega)
    · simp only [List.mem_cons, List.not_mem_nil, or_false] at hw
      rcases hw with rfl | rfl
      · exact Or.inl (hdr zeros_inHeader)
      · exact Or.inl (hdr ih2)

/-- C13: the recorded end never decreases. -/
theorem C13_end {env : Env} {path : Str} {ops : List Op} {f g : FileW}
    (h : Session env path ops f) (hl : Later env f g) : f.header.end_ ≤ g.header.end_ := by
  have hi := session_inv h
  cases hl with
  | runs hr =>
    obtain ⟨vs, -, p⟩ := runs_grows hi hr
    exact p.le
  | close hr hc =>
    obtain ⟨vs, -, p⟩ := runs_grows hi hr
    have hg := runs_inv hi hr
    obtain ⟨s, i, buf, ca⟩ := hg.close hc
    have := (ca.placed hg).le
    have := p.le
    omega

/-! ### C14 -/

theorem Later.writes {env : Env} {path : Str} {f g : FileW} (hi : Inv path f) (hl : Later env f g) :
    ∃ vs, g.trace = f.trace ++ vs ∧ ∀ v ∈ vs, v.InHeader ∨ v.Within (dirPos path) (dirPos path + 60) ∨
      f.header.end_ ≤ v.pos := by
  cases hl with
  | runs hr =>
    obtain ⟨vs, t, p⟩ := runs_grows hi hr
    exact ⟨vs, t, fun v hv => Or.inr (Or.inr (p.mem hv).1)⟩
  | close hr hc =>
    obtain ⟨vs, t, p⟩ := runs_grows hi hr
    have hg := runs_inv hi hr
    obtain ⟨s, i, buf, ca⟩ := hg.close hc
    have pl := ca.placed hg
    have hle := p.le
    have hr' := ca.range
    rw [ca.file] at hr' pl
    obtain ⟨d1, d2⟩ := dirWrite_eq hg
    refine ⟨_, by rw [ca.file, closedFile_trace, t, List.append_assoc, List.append_assoc,
      List.append_assoc, List.append_assoc], fun v hv => ?_⟩
    rcases List.mem_append.1 hv with hv | hv
    · exact Or.inr (Or.inr (p.mem hv).1)
    rcases List.mem_append.1 hv with hv | hv
    · have := (pl.mem (List.mem_append_left _ hv)).1
      exact Or.inr (Or.inr (by omega))
    rcases List.mem_append.1 hv with hv | hv
    · rw [List.mem_singleton.1 hv]
      exact Or.inr (Or.inl ⟨by omega, by omega⟩)
    rcases List.mem_append.1 hv with hv | hv
    · have := (pl.mem (List.mem_append_right _ hv)).1
      exact Or.inr (Or.inr (by omega))
    · simp only [List.mem_cons, List.not_mem_nil, or_false] at hv
      rcases hv with rfl | rfl
      · exact Or.inl zeros_inHeader
      · exact Or.inl (header_inHeader hr')

theorem Later.stored {env : Env} {path : Str} {f g : FileW} (hi : Inv path f) (hl : Later env f g)
    {w : DiskWrite} (hw : w ∈ f.trace) (hp : dirPos path + 60 ≤ w.pos) :
    Stored (image g.trace) w.pos w.data := by
  have hd := dirPos_ge path
  rcases Nat.eq_zero_or_pos w.data.length with h0 | h0
  · rw [List.length_eq_zero_iff.1 h0]
    exact Stored.nil _ _
  obtain ⟨vs, t, hv⟩ := hl.writes hi
  obtain ⟨ws, t0, p, q⟩ := hi.records
  have hw' : w ∈ ws := by
    rw [t0] at hw
    rcases List.mem_append.1 hw with hw | hw
    · simp only [List.mem_cons, List.not_mem_nil, or_false] at hw
      rcases hw with rfl | rfl <;> simp at hp <;> omega
    rcases List.mem_append.1 hw with hw | hw
    · have h1 := (dirKey_placed path).mem hw
      omega
    · exact hw
  obtain ⟨a, b, hab⟩ := List.append_of_mem hw'
  have pw := p.pairwise
  rw [hab] at pw
  have hb : ∀ v ∈ b, w.pos + w.data.length ≤ v.pos := fun v hv =>
    (List.pairwise_cons.1 (List.pairwise_append.1 pw).2.1).1 v hv
  rw [t, t0, hab, show ∀ x y z : List DiskWrite, x ++ (y ++ (a ++ w :: b)) ++ z =
    (x ++ (y ++ a)) ++ w :: (b ++ z) by intros; simp]
  refine Stored.image fun v hv' => ?_
  rcases List.mem_append.1 hv' with h | h
  · exact Or.inl (hb v h)
  · have hwe := (p.mem hw').2
    rcases hv v h with h | h | h
    · have := h.2; exact Or.inr (by omega)
    · have := h.2; exact Or.inr (by omega)
    · exact Or.inl (by omega)


/-- C14: whatever is written behind the directory record during a session (keys, objects, baskets) is
found there unchanged at any later time. -/
theorem C14_bytes {env : Env} {path : Str} {ops : List Op} {f g : FileW}
    (h : Session env path ops f) (hl : Later env f g) {w : DiskWrite} (hw : w ∈ f.trace)
    (hp : f.bodyStart ≤ w.pos) : readAt (image g.trace) w.pos w.data.length = .ok w.data := by
  have hi := session_inv h
  have e1 : f.bodyStart = dirPos path + 60 := by unfold FileW.bodyStart; rw [hi.hdr]; rfl
  rw [e1] at hp
  exact readAt_stored (by omega) rfl (hl.stored hi hw hp)

/-- C14 for objects: an accepted `put` adds a key, and what the object has written is found at the
position recorded in the key at any later time. -/
theorem C14_put {env : Env} {path name : Str} {ops : List Op} {obj : PutObj} {f f1 : FileW} {u : Unit}
    (h : Session env path ops f) (hput : put env name obj f = (.ok u, f1)) (hb : f1.Below2GB) :
    ∃ k n w, f1.dir.keys = f.dir.keys ++ [k] ∧ obj.marshal (WBuffer.new k.keyLen.toNat) = .ok (n, w) ∧
      k.objLen = (w.p.length : Int) ∧
      ∀ g, Later env f1 g → readAt (image g.trace) (k.seekKey + k.keyLen) k.objLen = .ok w.p := by
  have hi := session_inv h
  obtain ⟨hi1, c, m, w, k, hc, hm, hk, hd, ht, hp⟩ := put_inv hi hput hb
  subst hk
  refine ⟨_, m, w, hd, hm, rfl, fun g hl => ?_⟩
  have h26 : 26 ≤ kl (putName name obj) obj.title obj.cls := (keyLenFor_ge _ _ _ false false).1
  have h0 := hi.good.lo
  have hlo := hi.lo
  refine readAt_stored (by show 0 ≤ f.header.end_ + kl (putName name obj) obj.title obj.cls; omega) rfl
    (hl.stored hi1
      (w := ⟨(f.header.end_ + kl (putName name obj) obj.title obj.cls).toNat, w.p⟩) ?_ ?_)
  · rw [ht]
    exact List.mem_append_right _ (List.mem_cons_of_mem _ (List.mem_singleton.2 rfl))
  · show _ ≤ (((f.header.end_ + kl (putName name obj) obj.title obj.cls).toNat : Nat) : Int)
    omega

/-- C14 for baskets: the entries of the basket (a buffer written sequentially) are found behind its key at any later time. -/
theorem C14_basket {env : Env} {path : Str} {ops : List Op} {b b' : WBasket} {n m : Int}
    {f f1 : FileW} (h : Session env path ops f) (hw : b.writeToFile f = (.ok (b', n, m), f1))
    (hb : f1.Below2GB) (hwf : b.wbuf.c = b.wbuf.p.length) :
    ∃ table, b'.basket.key.objLen = (b.wbuf.p ++ table).length ∧ ∀ g, Later env f1 g →
      readAt (image g.trace) (b'.basket.key.seekKey + b'.basket.key.keyLen) b'.basket.key.objLen =
        .ok (b.wbuf.p ++ table) := by
  have hi := session_inv h
  obtain ⟨hi1, w, hpay, hk, hf1, -, -, -, hp⟩ := basket_inv hi hw hb
  have hpre : ∃ table, w.p = b.wbuf.p ++ table := ⟨_, hpay.bytes hwf⟩
  obtain ⟨table, htab⟩ := hpre
  refine ⟨table, by rw [hk, ← htab]; rfl, fun g hl => ?_⟩
  rw [← htab]
  have h26 : 26 ≤ kl b.basket.key.name b.basket.key.title (b! "TBasket") :=
    (keyLenFor_ge _ _ _ false false).1
  have h0 := hi.good.lo
  have hlo := hi.lo
  rw [hk]
  refine readAt_stored (by
    show 0 ≤ f.header.end_ + kl b.basket.key.name b.basket.key.title (b! "TBasket"); omega) rfl
    (hl.stored hi1 (w := ⟨(f.header.end_ + kl b.basket.key.name b.basket.key.title
      (b! "TBasket")).toNat, w.p⟩) ?_ ?_)
  · rw [hf1]
    unfold afterBasket
    rw [hk]
    exact List.mem_append_right _ (List.mem_cons_of_mem _ (List.mem_singleton.2 rfl))
  · show _ ≤ (((f.header.end_ + kl b.basket.key.name b.basket.key.title
      (b! "TBasket")).toNat : Nat) : Int)
    omega


/-- The hypotheses can be met, with an object stored twice, a basket and a refused name. -/
example : ∃ f f', Session demoEnv (b! "d.root") demoOps f ∧ Closes demoEnv f f' ∧ Later demoEnv f f' ∧
    f.dir.keys.length = 2 ∧ 8 < f.trace.length :=
  ⟨demoOpen, demoClosed, demo_session, demo_closes, .close .nil demo_closes, by decide +kernel,
    by decide +kernel⟩

end Verif
