import Verif.Model.TreeWrite
/-
Nothing that is done with a file takes back what was written.
-/
namespace Verif

/-- Whatever happens, what was written before stays. -/
def Fs.Grows {α} (m : Fs α) : Prop := ∀ f, f.trace <+: (m f).2.trace

namespace Fs.Grows

theorem bind {α β} {m : Fs α} {k : α → Fs β} (h : m.Grows) (hk : ∀ a, (k a).Grows) : (m >>= k).Grows := by
  intro f
  have h1 := h f
  show f.trace <+: (match m f with
    | (.ok a, f') => k a f'
    | (.error e, f') => (.error e, f')).2.trace
  rcases hm : m f with ⟨_ | a, f'⟩ <;> rw [hm] at h1
  · exact h1
  · exact h1.trans (hk a f')

theorem pure {α} (a : α) : Fs.Grows (Pure.pure a) := fun _ => List.prefix_refl _
theorem get : Fs.get.Grows := fun _ => List.prefix_refl _
theorem lift {α} (r : Res α) : (Fs.lift r).Grows := fun _ => List.prefix_refl _
theorem panic {α} : (Fs.panic : Fs α).Grows := fun _ => List.prefix_refl _
theorem fail {α} (e : Err) : (Fs.fail e : Fs α).Grows := fun _ => List.prefix_refl _
theorem modify {g : FileW → FileW} (h : ∀ f, (g f).trace = f.trace) : (Fs.modify g).Grows := by
  intro f
  show f.trace <+: (g f).trace
  rw [h f]
  exact List.prefix_refl _
theorem orPanic {α} (o : Option α) : (Fs.orPanic o).Grows := by
  cases o
  · exact panic
  · exact pure _
theorem i32 (v : Int) : (Fs.i32 v).Grows := by
  unfold Fs.i32
  split
  · exact pure _
  · exact panic
theorem marshal (off : Int) (m : Wr Nat) : (Fs.marshal off m).Grows := by
  intro f
  unfold Fs.marshal
  split <;> exact List.prefix_refl _
theorem writeAt (data : List Byte) (pos : Int) : (Fs.writeAt data pos).Grows := by
  intro f
  unfold Fs.writeAt
  split
  · exact List.prefix_refl _
  · exact List.prefix_append _ _

theorem setEnd (pos : Int) : (Fs.setEnd pos).Grows := by
  refine bind (modify fun _ => rfl) fun _ => bind get fun f => ?_
  split
  · exact panic
  · split
    · exact panic
    · exact modify fun _ => rfl

theorem newFromBuffer (n t c : Str) (cy : Int) (buf : List Byte) : (Key.newFromBuffer n t c cy buf).Grows :=
  bind get fun _ => bind (i32 _) fun _ => bind (i32 _) fun _ => bind (lift _) fun _ => bind (i32 _) fun _ =>
    bind (setEnd _) fun _ => pure _

theorem newFromObject (n t c : Str) (obj : Wr Nat) : (Key.newFromObject n t c obj).Grows :=
  bind get fun _ => bind (i32 _) fun _ => bind (marshal _ _) fun _ => bind (i32 _) fun _ =>
    bind (lift _) fun _ => bind (i32 _) fun _ => bind (setEnd _) fun _ => pure _

theorem keyToFile (k : Key) : k.writeToFile.Grows := by
  unfold Key.writeToFile
  split
  · exact panic
  · exact bind (marshal _ _) fun _ => bind (writeAt _ _) fun _ => writeAt _ _

theorem appendTable (b : Basket) (w : WBuffer) : (b.appendTable w).Grows := by
  unfold Basket.appendTable
  split
  · exact pure _
  · split
    · exact panic
    · exact bind (i32 _) fun _ => bind (lift _) fun _ => pure _

theorem basketToFile (b : WBasket) : b.writeToFile.Grows := by
  unfold WBasket.writeToFile
  exact bind get fun _ => bind (i32 _) fun _ => bind (appendTable _ _) fun _ =>
    bind (newFromBuffer _ _ _ _ _) fun _ => bind (i32 _) fun _ => bind (marshal _ _) fun _ =>
    bind (writeAt _ _) fun _ => bind (writeAt _ _) fun _ => pure _

theorem flush (b : WBranch) : b.flush.Grows :=
  bind (orPanic _) fun _ => bind (basketToFile _) fun _ => pure _

theorem currentBasket (b : WBranch) (tn : Str) : (b.currentBasket tn).Grows := by
  unfold WBranch.currentBasket
  split
  · exact pure _
  · exact bind get fun _ => bind (lift _) fun _ => pure _

theorem spill (b : WBranch) (bk : WBasket) (n : Int) (tn : Str) : (b.spill bk n tn).Grows := by
  unfold WBranch.spill
  split
  · exact panic
  · split
    · exact bind (flush _) fun _ => bind get fun _ => bind (lift _) fun _ => pure _
    · exact pure _

theorem write (b : WBranch) (tn : Str) : (b.write tn).Grows := by
  refine bind (currentBasket _ _) fun x => ?_
  obtain ⟨b1, bk⟩ := x
  dsimp only
  split
  · exact pure _
  · exact pure _
  · exact bind (lift _) fun _ => bind (spill _ _ _ _) fun _ => pure _

theorem addBytes (tot : Int) (n : Option Int) : (Verif.addBytes tot n).Grows := by
  cases n
  · exact pure _
  · exact i32 _

theorem writeRound (tn : Str) (cb : Nat) (bs : List WBranch) (tot : Int) :
    (Verif.writeRound tn cb bs tot).Grows := by
  induction bs generalizing tot with
  | nil => exact pure _
  | cons b bs ih =>
    exact bind (write _ _) fun _ => bind (addBytes _ _) fun _ => bind (ih _) fun _ => pure _

theorem writeRounds (fuel : Nat) (done : List Bool) (t : WTree) : (Verif.writeRounds fuel done t).Grows := by
  induction fuel generalizing done t with
  | zero => exact panic
  | succ fuel ih =>
    unfold Verif.writeRounds
    refine bind (writeRound _ _ _ _) fun x => ?_
    obtain ⟨bs, now, tot, log⟩ := x
    dsimp only
    split
    · exact pure _
    · exact ih _ _

theorem flushAll (bs : List WBranch) : (Verif.flushAll bs).Grows := by
  induction bs with
  | nil => exact pure _
  | cons b bs ih => exact bind (flush _) fun _ => bind ih fun _ => pure _

theorem dictionary (env : Env) (n : Str) (v : Int) : (Fs.dictionary env n v).Grows :=
  bind get fun _ => bind (lift _) fun _ => bind (modify fun _ => rfl) fun _ => pure _

theorem addStreamerInfo (si : StreamerInfo) : (Verif.addStreamerInfo si).Grows := by
  refine bind get fun _ => ?_
  split
  · exact pure _
  · exact modify fun _ => rfl

theorem registerInfo (si : StreamerInfo) : (Verif.registerInfo si).Grows :=
  bind get fun _ => bind (modify fun _ => rfl) fun _ => addStreamerInfo _

theorem registerAll (sis : List StreamerInfo) : (Verif.registerAll sis).Grows := by
  induction sis with
  | nil => exact pure _
  | cons si sis ih => exact bind (registerInfo _) fun _ => ih

theorem put (env : Env) (name : Str) (obj : PutObj) : (Verif.put env name obj).Grows := by
  unfold Verif.put
  split
  · exact fail _
  · refine bind get fun f => ?_
    dsimp only
    split
    · exact fail _
    · split
      · refine bind (dictionary _ _ _) fun _ => bind (addStreamerInfo _) fun _ => bind (newFromObject _ _ _ _) fun _ => bind (keyToFile _) fun _ => modify fun _ => rfl
      · refine bind (newFromObject _ _ _ _) fun _ => bind (keyToFile _) fun _ => modify fun _ => rfl

end Fs.Grows

/-- The same as a fact about one execution. -/
theorem Fs.Grows.mem {α} {m : Fs α} (h : m.Grows) {f f' : FileW} {r : Except Fault α} (hm : m f = (r, f'))
    {w : DiskWrite} (hw : w ∈ f.trace) : w ∈ f'.trace := by
  have := h f
  rw [hm] at this
  exact this.subset hw

end Verif
