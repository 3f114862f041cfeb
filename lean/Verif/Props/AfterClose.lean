import Verif.Lemmas.AfterClose
import Verif.Props.Walk
import Verif.Spec.DemoTree
/-
C70: what was closed stays readable, whatever is done with the file afterwards.
-/
namespace Verif

theorem Written.after {env : Env} {path : Str} {ids : Nat} {ops more : List Op} {f0 f f' g : FileW}
    (hw : Written env path ids ops f0 f f') (hr : Runs env f' more g) :
    ∃ s i buf, Inv path f ∧ ClosedAs env path f f' s i buf ∧ After path f' g ∧
      Added f' g (acceptedPuts env f' more) := by
  obtain ⟨rfl, hlim⟩ := create_ok hw.create hw.small.end_
  have hi := runs_inv (Inv.created (path := path) (ids := ids) hlim) hw.runs
  obtain ⟨s, i, buf, hc⟩ := hi.close hw.close
  obtain ⟨h1, h2⟩ := runs_after (hc.after hi hw.close.2.end_) hr
  exact ⟨s, i, buf, hi, hc, h1, h2⟩

/-- C70, storing more: a file that was created, filled and closed is used further, and the process may
stop at any moment of it.  Whatever a reader got from the closed file it gets from what is on disk. -/
theorem C70_kept {env : Env} {path : Str} {ids : Nat} {ops more : List Op} {f0 f f' g : FileW}
    (hw : Written env path ids ops f0 f f') (hr : Runs env f' more g) (dec : Decoders) :
    StillReads dec (image f'.trace) (image g.trace) ∧
    ∀ n k, f'.trace.length ≤ n → StillReads dec (image f'.trace) (crashImage g.trace n k) := by
  obtain ⟨s, i, buf, hi, hc, ha, -⟩ := hw.after hr
  obtain ⟨_, _, _, _, _, -, hlen, -⟩ := C66_walk hw
  obtain ⟨ws, ht, hp⟩ := ha.trace
  have hb : ∀ w ∈ ws, (image f'.trace).length ≤ w.pos := fun w hw' => by
    have := (hp.mem hw').1
    omega
  rw [ht]
  constructor
  · obtain ⟨e, he⟩ := image_prefix hb
    rw [← he]
    exact stillReads_append dec _ e
  · intro n k hn
    obtain ⟨e, he⟩ := crashImage_prefix hb n k hn
    rw [← he]
    exact stillReads_append dec _ e

/-- C70, closing again: it never succeeds, whether or not something was stored in between. -/
theorem C70_again {env : Env} {path : Str} {ids : Nat} {ops more : List Op} {f0 f f' g : FileW}
    (hw : Written env path ids ops f0 f f') (hr : Runs env f' more g) : (closeFile env g).1 ≠ .ok () := by
  obtain ⟨s, i, buf, hi, hc, ha, -⟩ := hw.after hr
  exact ha.close_again hi hc rfl

/-- C70, after the second close has failed: with room for one more list of keys, the file opens; its
directory has what was stored before the first close and what was stored since, in this order, all of it
with the bytes it was written as.  The class records are those of the first close: a class that came
later has none.  The end of the file and its list of free space are those of the first close as well,
so the objects stored since lie in space the file declares free. -/
theorem C70_aborted {env : Env} {path : Str} {ids : Nat} {ops more : List Op} {f0 f f' g g' : FileW}
    {e : Res Unit} (hw : Written env path ids ops f0 f f') (hh : Holds env path ops f0 f')
    (hr : Runs env f' more g) (hcl : closeFile env g = (e, g'))
    (hobj : ∀ p ∈ acceptedPuts env f' more, Storable p)
    (hno : ∀ p ∈ acceptedPuts env f0 ops ++ acceptedPuts env f' more, p.2.cls ≠ b! "TBasket")
    (hroom : g.header.end_ + listRoom path (acceptedPuts env f0 ops ++ acceptedPuts env f' more) ≤ 2000000000)
    (dec : Decoders) (fuel : Nat) (hfuel : 3 ≤ fuel) :
    ∃ r0 r old new, openFile dec fuel (image f'.trace) = .ok r0 ∧ openFile dec fuel (image g'.trace) = .ok r ∧
      r.dir.keys = old ++ new ∧
      Pairs (EntryOf dec r) (acceptedPuts env f0 ops) old ∧
      Pairs (EntryOf dec r) (acceptedPuts env f' more) new ∧
      r.sinfos = r0.sinfos ∧ r.header = r0.header ∧ r.spans = [⟨r.header.end_, 2000000000⟩] ∧
      ∀ k ∈ new, r.header.end_ ≤ k.seekKey := by
  obtain ⟨hi0, hk0, hi, hfit, s, i, buf, hc, hko, es, ei, hop⟩ := hw.opened hh
  obtain ⟨ha, hadd⟩ := runs_after (hc.after hi hw.close.2.end_) hr
  have hold := runs_made hi0 hk0 hw.runs
  obtain ⟨ks, ws, a1, a2, a3, a4, a5⟩ := hadd
  have hdir : f'.dir.keys = f.dir.keys := by rw [hc.file]; rfl
  rw [hdir] at a1
  have hall := hold.append a5
  rw [← a1] at hall
  have hmem : ∀ k ∈ g.dir.keys, ∃ p ∈ acceptedPuts env f0 ops ++ acceptedPuts env f' more, MadeFor p k := by
    intro k hk
    have : ∀ {as : List (Str × PutObj)} {bs : List Key}, Pairs MadeFor as bs → k ∈ bs → ∃ p ∈ as, MadeFor p k := by
      intro as bs hp hk
      induction hp with
      | nil => cases hk
      | cons h _ ih =>
        rcases List.mem_cons.1 hk with rfl | hk
        · exact ⟨_, List.mem_cons_self .., h⟩
        · obtain ⟨p, h1, h2⟩ := ih hk
          exact ⟨p, List.mem_cons_of_mem _ h1, h2⟩
    exact this hall hk
  have hst : ∀ p ∈ acceptedPuts env f0 ops ++ acceptedPuts env f' more, Storable p := fun p hp =>
    (List.mem_append.1 hp).elim (hh.objects p) (hobj p)
  have hfitg : KeysFit g := by
    intro k hk
    obtain ⟨p, hp, e1, e2, e3, -⟩ := hmem k hk
    have hp' := hst p hp
    rw [e1, e2, e3]
    have := kl_le p.1 p.2.title p.2.cls
    have := hp'.short
    exact ⟨by omega, hp'.name, hp'.title, hp'.cls⟩
  have hnog : ∀ k ∈ g.dir.keys, k.cls ≠ b! "TBasket" := by
    intro k hk
    obtain ⟨p, hp, e1, e2, -⟩ := hmem k hk
    rw [e2]
    exact hno p hp
  have hroomg : g.header.end_ + (kl path [] (b! "TDirectory") + keysLen g.dir) ≤ 2000000000 := by
    have h1 := kl_le path [] (b! "TDirectory")
    have h2 : (g.dir.keys.map Key.keyLen).sum ≤ ((((acceptedPuts env f0 ops ++ acceptedPuts env f' more).map
        fun p => p.1.length + p.2.title.length + p.2.cls.length + 60).sum : Nat) : Int) := by
      have : ∀ {as : List (Str × PutObj)} {bs : List Key}, Pairs MadeFor as bs → (∀ k ∈ bs, KeyOk path g k) →
          (bs.map Key.keyLen).sum ≤
            (((as.map fun p => p.1.length + p.2.title.length + p.2.cls.length + 60).sum : Nat) : Int) := by
        intro as bs hp hk
        induction hp with
        | nil => exact Int.le_refl _
        | @cons p k as bs h _ ih =>
          have h1 := ih fun k hk' => hk k (List.mem_cons_of_mem _ hk')
          have h2 := kl_le k.name k.title k.cls
          have h3 : k.keyLen = kl k.name k.title k.cls := by rw [(hk k (List.mem_cons_self ..)).form]; rfl
          obtain ⟨e1, e2, e3, -⟩ := h
          rw [e1, e2, e3] at h2 h3
          simp only [List.map_cons, List.sum_cons, Int.natCast_add] at *
          omega
      exact this hall ha.keys
    have h3 : (([] : Str).length : Int) = 0 := rfl
    have h4 : ((b! "TDirectory" : Str).length : Int) = 10 := rfl
    unfold listRoom at hroom
    unfold keysLen
    omega
  have htr := ha.close_aborts hi hc hroomg hcl
  have hopen := ha.open_aborted hh.process hi hc hw.close.2.end_ hh.text (pathLen_short.1 hh.short) hfitg hnog
    hroomg hko (by rw [← ei]; exact hh.apart) hh.listBytes (by rw [← es]; exact hh.listLength) dec (fuel - 3)
  rw [show fuel - 3 + 3 = fuel by omega, ← htr] at hopen
  obtain ⟨ws', ht', hp', kept, new, -, -⟩ := ha.aborted hi hc
  rw [← htr] at kept new
  have hws : ws' = ws := List.append_cancel_left (ht'.symm.trans a2)
  rw [hws] at new
  have hdp := dirPos_ge path
  have load : ∀ k, KeyOk path g k → Stored (image g'.trace) (k.seekKey + k.keyLen).toNat k.buffer →
      k.listed.load dec (image g'.trace) = .ok k.buffer := by
    intro k hk hs
    have h26 : 26 ≤ kl k.name k.title k.cls := (keyLenFor_ge _ _ _ false false).1
    have hkl := hk.lo
    have hkey : k.keyLen = kl k.name k.title k.cls := by rw [hk.form]; rfl
    have hnb : k.nBytes = kl k.name k.title k.cls + k.buffer.length := by rw [hk.form]; rfl
    have hhi := hk.hi
    have hend : g.header.end_ ≤ 2000000000 := ha.good.hi
    exact Key.load_plain (k := k) (v := packedNow) (by rw [hk.form]; rfl) (by rw [hk.form]; rfl) (by omega) (by omega)
      (by omega) (by omega) hs
  refine ⟨_, _, f.dir.keys.map Key.listed, ks.map Key.listed, hop dec fuel hfuel, hopen, ?_, ?_, ?_, ?_, rfl, rfl, ?_⟩
  · show g.dir.keys.map Key.listed = _
    rw [a1, List.map_append]
  · refine hold.map_right fun p k hk ⟨e1, e2, e3, n, w, e4, e5⟩ => ⟨e1, ?_, e3, n, w, e4, ?_⟩
    · show shownClass k.cls = _; rw [e2]
    rw [← e5]
    have hk' := hi.keys k hk
    refine load k (ha.keys k (by rw [a1]; exact List.mem_append_left _ hk)) ?_
    have hkey : k.keyLen = kl k.name k.title k.cls := by rw [hk'.form]; rfl
    have h26 : 26 ≤ kl k.name k.title k.cls := (keyLenFor_ge _ _ _ false false).1
    have hlo := hk'.lo
    have hhi := hk'.hi
    have hen := hc.ends hi
    have hs := (Later.close .nil hw.close).stored hi (hk'.written
      ⟨(k.seekKey + k.keyLen).toNat, k.buffer⟩ (List.mem_cons_of_mem _ (List.mem_singleton.2 rfl))) (by
        show _ ≤ (((k.seekKey + k.keyLen).toNat : Nat) : Int)
        omega)
    exact kept _ _ hs (by show (((k.seekKey + k.keyLen).toNat : Nat) : Int) + k.buffer.length ≤ _; omega)
      (Or.inr (by show _ ≤ (((k.seekKey + k.keyLen).toNat : Nat) : Int); omega))
  · refine a5.map_right fun p k hk ⟨e1, e2, e3, n, w, e4, e5⟩ => ⟨e1, ?_, e3, n, w, e4, ?_⟩
    · show shownClass k.cls = _; rw [e2]
    rw [← e5]
    exact load k (ha.keys k (by rw [a1]; exact List.mem_append_right _ hk)) (new _ (Or.inl (a4 k hk _
      (List.mem_cons_of_mem _ (List.mem_singleton.2 rfl)))))
  · show (s.map StreamerInfo.expected).reverse = _
    rw [es]
  · intro k hk
    obtain ⟨k0, hk0', rfl⟩ := List.mem_map.1 hk
    have hko' := ha.keys k0 (by rw [a1]; exact List.mem_append_right _ hk0')
    have hlo := hko'.lo
    have := (a3.mem (a4 k0 hk0' ⟨k0.seekKey.toNat, k0.enc packedNow⟩ (List.mem_cons_self ..))).1
    show f'.header.end_ ≤ k0.seekKey
    have h2 : (((⟨k0.seekKey.toNat, k0.enc packedNow⟩ : DiskWrite).pos : Nat) : Int) = k0.seekKey := by
      show ((k0.seekKey.toNat : Nat) : Int) = _
      omega
    omega

/-! ### A tree that was written -/

theorem writeRounds_sinfos {fuel : Nat} {done : List Bool} {t t' : WTree} {f f' : FileW}
    (h : writeRounds fuel done t f = (.ok t', f')) : t'.sinfos = t.sinfos := by
  induction fuel generalizing done t f with
  | zero => cases h
  | succ n ih =>
    unfold writeRounds at h
    obtain ⟨⟨bs, now, tot, log⟩, f1, h1, h2⟩ := Fs.ok_bind.1 h
    dsimp only at h2
    split at h2
    · cases h2; rfl
    · have := ih h2
      exact this

theorem WTree.close_none {env : Env} {places : Places} {t : WTree} (hs : t.sinfos = none) (f : FileW) (t' : WTree)
    (f' : FileW) : t.close env places f ≠ (.ok t', f') := by
  intro h
  unfold WTree.close at h
  obtain ⟨bs, f1, h1, h2⟩ := Fs.ok_bind.1 h
  obtain ⟨u, f2, h3, h4⟩ := Fs.ok_bind.1 h2
  obtain ⟨sis, f3, h5, h6⟩ := Fs.ok_bind.1 h4
  dsimp only at h5
  rw [hs] at h5
  cases h5

/-- C70, trees: a tree that was written once is not written again, to whatever file. -/
theorem C70_tree_once {env env' : Env} {places places' : Places} {t t' t'' : WTree} {f f' g g' : FileW}
    (h : t.write env places f = (.ok t', f')) : t'.write env' places' g ≠ (.ok t'', g') := by
  have hs : t'.sinfos = none := by
    unfold WTree.write at h
    obtain ⟨t1, f1, -, h2⟩ := Fs.ok_bind.1 h
    unfold WTree.close at h2
    obtain ⟨bs, f2, -, h3⟩ := Fs.ok_bind.1 h2
    obtain ⟨u, f3, -, h4⟩ := Fs.ok_bind.1 h3
    obtain ⟨sis, f4, -, h5⟩ := Fs.ok_bind.1 h4
    obtain ⟨u', f5, -, h6⟩ := Fs.ok_bind.1 h5
    cases h6
    rfl
  intro h'
  unfold WTree.write at h'
  obtain ⟨t1, f1, h1, h2⟩ := Fs.ok_bind.1 h'
  exact WTree.close_none ((writeRounds_sinfos h1).trans hs) _ _ _ h2

/-- The tree of `Spec/DemoTree.lean`, written again to the same file. -/
example : ∃ t', demoTree.write demoTreeEnv demoPlaces demoFile = (.ok t', demoTreeRun.2) ∧
    ∀ t'' g', t'.write demoTreeEnv demoPlaces demoTreeRun.2 ≠ (.ok t'', g') := by
  obtain ⟨t', h⟩ := demo_tree_written
  exact ⟨t', h, fun _ _ => C70_tree_once h⟩

/-! ### The session of `Spec/Demo.lean`, used further -/

theorem pair_eta {α β} (x : α × β) : x = (x.1, x.2) := rfl

/-- Another object and another basket, stored in the closed file. -/
def demoMore : List Op := [.put (b! "p") (demoObj 8), .basket demoBasket]

def demoLater : FileW := demoMore.foldl (fun f op => (op.run demoEnv f).2) demoClosed

theorem demo_later : Runs demoEnv demoClosed demoMore demoLater := runs_of_check (by decide +kernel)

/-- Both were accepted, and something was written. -/
example : (acceptedPuts demoEnv demoClosed demoMore).map Prod.fst = [b! "p"] ∧
    demoClosed.trace.length + 4 = demoLater.trace.length := by decide +kernel

example (dec : Decoders) : ∃ r, openFile dec 3 (image demoLater.trace) = .ok r ∧ r.keysName = [b! "o", b! "o"] := by
  obtain ⟨r, h, hk, -⟩ := C15_reopen demo_written demo_holds demo_few dec 3 (Nat.le_refl _)
  obtain ⟨r', h1, h2, -⟩ := (C70_kept demo_written demo_later dec).1 3 r h
  refine ⟨r', h1, h2.trans (hk.trans ?_)⟩
  decide +kernel

/-- C70 does not hold as it is stated: there is no second close. -/
theorem C70_false : ¬ ∀ (env : Env) (path : Str) (ids : Nat) (ops more : List Op) (f0 f f' g : FileW),
    Written env path ids ops f0 f f' → Holds env path ops f0 f' → Runs env f' more g →
    (closeFile env g).1 = .ok () := fun h =>
  C70_again demo_written demo_later (h _ _ _ _ _ _ _ _ _ demo_written demo_holds demo_later)

example (dec : Decoders) : ∃ r, openFile dec 3 (image (closeFile demoEnv demoLater).2.trace) = .ok r ∧
    r.keysName = [b! "o", b! "o", b! "p"] := by
  have h1 : ((acceptedPuts demoEnv demoClosed demoMore).all fun p =>
      utf8 p.1 && utf8 p.2.title && utf8 p.2.cls &&
        decide (p.1.length + p.2.title.length + p.2.cls.length ≤ 32700)) = true := by decide +kernel
  obtain ⟨-, r, old, new, -, h, hk, ho, hn, -⟩ := C70_aborted demo_written demo_holds demo_later (pair_eta (closeFile demoEnv demoLater)) (by
      intro p hp
      have := List.all_eq_true.1 h1 p hp
      simp only [Bool.and_eq_true, decide_eq_true_eq] at this
      exact ⟨this.1.1.1, this.1.1.2, this.1.2, this.2⟩) (by
      have h2 : ((acceptedPuts demoEnv (createFile (FileW.initial (b! "d.root") 10)).2 demoOps ++
        acceptedPuts demoEnv demoClosed demoMore).all fun p => decide (p.2.cls ≠ b! "TBasket")) = true := by
        decide +kernel
      intro p hp
      simpa using List.all_eq_true.1 h2 p hp) (by decide +kernel) dec 3 (Nat.le_refl _)
  refine ⟨r, h, ?_⟩
  unfold FileR.keysName
  rw [hk, List.map_append, ho.map_eq fun a b h => h.1, hn.map_eq fun a b h => h.1]
  decide +kernel

end Verif
