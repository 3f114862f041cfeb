import Verif.Lemmas.Big
import Verif.Spec.Demo
/-
C44: files above 2 GB.  The directory record keeps 32-bit positions, so that the list of keys of a
file that ends beyond 2 GB cannot be found again.
-/
namespace Verif

/-- The property fails for every session: if the file ends between 2^31 and 2^32 bytes when it is
closed, it cannot be opened, although every call and `close` succeeded.  Whatever had been stored,
even before the limit was passed, is lost. -/
theorem C44_large_file_lost {env : Env} {path : Str} {ops : List Op} {f f' : FileW}
    (h : AnySession env path ops f) (h1 : 2 ^ 31 ≤ f.header.end_) (h2 : f.header.end_ < 2 ^ 32)
    (hc : closeFile env f = (.ok (), f')) (dec : Decoders) (fuel : Nat) (r : FileR) :
    openFile dec fuel (image f'.trace) ≠ .ok r := by
  obtain ⟨hs, hlim⟩ := anySession_lasting h
  obtain ⟨hd, n, a1, a2, a3, a4, a5, a6, a7⟩ := close_big hs hlim h1 h2 hc
  exact big_not_ok hlim a1 a2 a3 a4 a5 h1 h2 a6 a7 r

/-! ### There are such sessions -/

/-- An object whose stored form is `bs`. -/
def blob (bs : List Byte) : PutObj :=
  { name := b! "big", title := [], cls := b! "TObject", vers := 1
    marshal := fun w => (Wr.counted (Wr.bytes bs)) w }

/-- Storing an object of almost 2 GB in a new file. -/
theorem put_blob {env : Env} {bs : List Byte} (hl : bs.length = 2147483608) :
    ∃ g, put env (b! "big") (blob bs) (createdFile (b! "d.root") 10) = (.ok (), g) ∧
      g.header.end_ = 2147483855 ∧ g.sinfos = [] ∧
      (∀ k ∈ g.dir.keys, k.Writable) ∧ (g.dir.keys.map Key.keyLen).sum ≤ 1000000 := by
  have hr : (createdFile (b! "d.root") 10).OneSpan := rfl
  have hlen : asI 4 (bs.length : Int) = 2147483608 := by rw [hl]; decide
  have hk : (createdFile (b! "d.root") 10).keyLenFor (b! "big") [] (b! "TObject") = 39 := rfl
  have hm : Fs.marshal 39 (blob bs).marshal (createdFile (b! "d.root") 10) =
      (.ok bs, createdFile (b! "d.root") 10) :=
    Fs.marshal_writes (Writes.counted (Writes.bytes bs)) _
  have h1 : Key.newFromObject (b! "big") [] (b! "TObject") (blob bs).marshal (createdFile (b! "d.root") 10) =
      (.ok (Key.at (b! "big") [] (b! "TObject") 1 2147483608 (keyLenFor (b! "big") [] (b! "TObject") false false)
        208 100 false bs), (createdFile (b! "d.root") 10).ended 2147483855) := by
    unfold Key.newFromObject
    rw [Fs.bind_of_ok (Fs.ok_get.2 ⟨rfl, rfl⟩), hk, Fs.bind_of_ok (Fs.i32_eq (by decide) _),
      Fs.bind_of_ok hm, hlen, Fs.bind_of_ok (Fs.i32_eq (by decide) _),
      show (createdFile (b! "d.root") 10).header.compression = 1 from rfl, compressPayload_eq,
      Fs.bind_of_ok (Fs.ok_lift.2 ⟨rfl, rfl⟩), hlen, Fs.bind_of_ok (Fs.i32_eq (by decide) _),
      Fs.bind_of_ok (Fs.setEnd_eq hr _)]
    rfl
  have hw : (Key.at (b! "big") [] (b! "TObject") 1 2147483608 (keyLenFor (b! "big") [] (b! "TObject") false false)
        208 100 false bs).Writable :=
    Key.at_writable (by decide) (by decide) (by decide) (by decide)
  unfold put
  rw [if_neg (by decide), Fs.bind_of_ok (Fs.ok_get.2 ⟨rfl, rfl⟩)]
  have hc : lastCycle (b! "big") (b! "TObject") (createdFile (b! "d.root") 10).dir.keys 0 = some 0 := rfl
  have hc' : lastCycle (if (b! "big" : Str) = [] then (blob bs).name else b! "big") (blob bs).cls
      (createdFile (b! "d.root") 10).dir.keys 0 = some 0 := hc
  rw [hc']
  have hcore : ¬ (blob bs).cls ∉ coreTypes := by
    show ¬ (b! "TObject" ∉ coreTypes); decide
  simp only [if_neg hcore, show (if (b! "big" : Str) = [] then (blob bs).name else b! "big") = b! "big" from rfl,
    show (blob bs).cls = b! "TObject" from rfl, show (blob bs).title = [] from rfl]
  generalize hkk : Key.at (b! "big") [] (b! "TObject") 1 2147483608
    (keyLenFor (b! "big") [] (b! "TObject") false false) 208 100 false bs = k at h1 hw
  have hkl : k.keyLen = 39 := by rw [← hkk]; rfl
  have hcy : ({ k with cycle := asI 2 (0 + 1) } : Key) = k := by rw [← hkk]; rfl
  have hgoal : (Key.newFromObject (b! "big") [] (b! "TObject") (blob bs).marshal >>= fun key => do
      Key.writeToFile { key with cycle := asI 2 (0 + 1) }
      Fs.modify fun f => { f with dir := { f.dir with
        keys := f.dir.keys ++ [{ key with cycle := asI 2 (0 + 1) }] } }) (createdFile (b! "d.root") 10) =
      (.ok (), { (createdFile (b! "d.root") 10).ended 2147483855 with
        trace := (createdFile (b! "d.root") 10).trace ++ k.twoWrites (k.enc packedNow)
        dir := { createdDir (b! "d.root") with keys := [k] } }) := by
    rw [Fs.bind_of_ok h1, hcy, Fs.bind_of_ok (Key.writeToFile_eq hw _)]
    rfl
  refine ⟨_, hgoal, rfl, rfl, ?_, ?_⟩
  · intro k' hk'
    rw [List.mem_singleton.1 hk']; exact hw
  · show k.keyLen + 0 ≤ 1000000
    rw [hkl]; decide

/-- C44 is false: a session in which all calls succeed and nothing can be read back. -/
theorem C44_false (env : Env) : ∃ (path : Str) (name : Str) (obj : PutObj) (f f' : FileW),
    AnySession env path [.put name obj] f ∧ 2 ^ 31 ≤ f.header.end_ ∧ f.header.end_ < 2 ^ 32 ∧
    closeFile env f = (.ok (), f') ∧
    ∀ dec fuel r, openFile dec fuel (image f'.trace) ≠ .ok r := by
  obtain ⟨g, h1, h2, h3, h4, h5⟩ := put_blob (env := env) (bs := List.replicate 2147483608 0)
    (List.length_replicate)
  have h0 : createFile (FileW.initial (b! "d.root") 10) = (.ok (), createdFile (b! "d.root") 10) := by
    have h := ok_pair (m := createFile) (f := FileW.initial (b! "d.root") 10) (by decide +kernel)
    have hb : (createFile (FileW.initial (b! "d.root") 10)).2.Below2GB := below2GB_iff.1 (by decide +kernel)
    rw [← (create_ok h hb.end_).1]; exact h
  have hs : AnySession env (b! "d.root") ([] ++ [.put (b! "big") (blob (List.replicate 2147483608 0))]) g :=
    ⟨10, _, h0, below2GB_iff.1 (by decide +kernel), .snoc .nil h1 (by simp)⟩
  have hst := (anySession_lasting hs).1
  obtain ⟨f', hf'⟩ := close_runs (env := env) hst (by decide) (by omega) (by omega) h4 h5 h3
  exact ⟨_, _, _, g, f', hs, by omega, by omega, hf', fun dec fuel r =>
    C44_large_file_lost hs (by omega) (by omega) hf' dec fuel r⟩

end Verif
