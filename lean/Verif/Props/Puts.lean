import Verif.Props.Layout
import Verif.Spec.Directory
/-
C07 (a key occupies the space it declares), C17 (cycles), C33 (payloads are stored as they are), C34
(compressed payloads), C35 (streamer records), C46 (identification).
-/
namespace Verif

/-! ### C17 -/

theorem lastCycle_some {name cls : Str} {keys : List Key} {c0 c : Int}
    (h : lastCycle name cls keys c0 = some c) :
    c0 ≤ c ∧ (∀ k ∈ keys, k.name = name → k.cycle ≤ c ∧ k.cls = cls) ∧
      (c = c0 ∨ ∃ k ∈ keys, k.name = name ∧ k.cycle = c) := by
  induction keys generalizing c0 with
  | nil =>
    cases h
    exact ⟨Int.le_refl _, (fun k hk => by cases hk), Or.inl rfl⟩
  | cons k ks ih =>
    unfold lastCycle at h
    split at h
    next hn =>
      obtain ⟨h1, h2, h3⟩ := ih h
      refine ⟨h1, fun k' hk' hn' => ?_, h3.imp_right fun ⟨k', hk', h⟩ =>
        ⟨k', List.mem_cons_of_mem _ hk', h⟩⟩
      rcases List.mem_cons.1 hk' with rfl | hk'
      · exact absurd hn' hn
      · exact h2 k' hk' hn'
    next hn =>
    have hn : k.name = name := Decidable.not_not.1 hn
    split at h
    · cases h
    next hc =>
    have hc : k.cls = cls := Decidable.not_not.1 hc
    obtain ⟨h1, h2, h3⟩ := ih h
    have hm : c0 ≤ (if c0 < k.cycle then k.cycle else c0) ∧
        k.cycle ≤ (if c0 < k.cycle then k.cycle else c0) := by split <;> omega
    refine ⟨by omega, fun k' hk' hn' => ?_, ?_⟩
    · rcases List.mem_cons.1 hk' with rfl | hk'
      · exact ⟨by omega, hc⟩
      · exact h2 k' hk' hn'
    · rcases h3 with h3 | ⟨k', hk', h⟩
      · by_cases hlt : c0 < k.cycle
        · rw [if_pos hlt] at h3
          exact Or.inr ⟨k, List.mem_cons_self .., hn, h3.symm⟩
        · rw [if_neg hlt] at h3
          exact Or.inl h3
      · exact Or.inr ⟨k', List.mem_cons_of_mem _ hk', h⟩

theorem lastCycle_none {name cls : Str} {keys : List Key} {c0 : Int}
    (h : ∃ k ∈ keys, k.name = name ∧ k.cls ≠ cls) : lastCycle name cls keys c0 = none := by
  induction keys generalizing c0 with
  | nil => obtain ⟨k, hk, -⟩ := h; cases hk
  | cons k ks ih =>
    unfold lastCycle
    by_cases hn : k.name = name
    · rw [if_neg (not_not_intro hn)]
      by_cases hc : k.cls = cls
      · rw [if_neg (not_not_intro hc)]
        obtain ⟨k', hk', h1, h2⟩ := h
        rcases List.mem_cons.1 hk' with rfl | hk'
        · exact absurd hc h2
        · exact ih ⟨k', hk', h1, h2⟩
      · rw [if_pos hc]
    · rw [if_pos hn]
      obtain ⟨k', hk', h1, h2⟩ := h
      rcases List.mem_cons.1 hk' with rfl | hk'
      · exact absurd h1 hn
      · exact ih ⟨k', hk', h1, h2⟩

/-- The directory after one call. -/
theorem step_dir {env : Env} {path : Str} {op : Op} {r : Res Unit} {f f' : FileW} (hi : Inv path f)
    (h : op.run env f = (r, f')) (hr : r ≠ .error .panic) (hb : f'.Below2GB) :
    (f'.dir.keys = f.dir.keys ∧ ∀ name obj, op = .put name obj → r ≠ .ok ()) ∨
    ∃ name obj c m w k, op = .put name obj ∧ r = .ok () ∧
      lastCycle (putName name obj) obj.cls f.dir.keys 0 = some c ∧
      obj.marshal (WBuffer.new (kl (putName name obj) obj.title obj.cls).toNat) = .ok (m, w) ∧
      k = Key.at (putName name obj) obj.title obj.cls (asI 2 (c + 1))
        w.p.length (kl (putName name obj) obj.title obj.cls) f.header.end_ 100 false w.p ∧
      f'.dir.keys = f.dir.keys ++ [k] := by
  cases op with
  | put name obj =>
    rcases r with (e | e) | u
    · left
      refine ⟨?_, fun _ _ _ => by simp⟩
      rcases put_err hi.good h with rfl | ha
      · rfl
      · rw [ha.same]
    · exact absurd rfl hr
    · obtain ⟨-, c, m, w, k, h1, h2, h3, h4, -⟩ := put_inv hi h hb
      exact Or.inr ⟨name, obj, c, m, w, k, rfl, rfl, h1, h2, h3, h4⟩
  | basket b =>
    left
    refine ⟨?_, fun _ _ h => by cases h⟩
    simp only [Op.run] at h
    generalize hw : b.writeToFile f = x at h
    obtain ⟨(e | e) | ⟨b', n, m⟩, f1⟩ := x
    · exact absurd hw (WBasket.writeToFile_err hi.good)
    · cases h; exact absurd rfl hr
    · cases h
      obtain ⟨-, w, -, -, ht, -⟩ := basket_inv hi hw hb
      rw [ht]; rfl
  | register si =>
    left
    refine ⟨?_, fun _ _ h => by cases h⟩
    simp only [Op.run] at h
    rw [registerInfo_eq] at h
    cases h
    rfl

theorem acceptedPuts_snoc (env : Env) (f : FileW) (ops : List Op) (op : Op) :
    acceptedPuts env f (ops ++ [op]) = acceptedPuts env f ops ++
      op.accepted env (ops.foldl (fun f op => (op.run env f).2) f) := by
  induction ops generalizing f with
  | nil => simp [acceptedPuts]
  | cons o os ih => simp only [List.cons_append, acceptedPuts, ih, List.foldl_cons, List.append_assoc]

theorem Runs.end_eq {env : Env} {f g : FileW} {ops : List Op} (h : Runs env f ops g) :
    g = ops.foldl (fun f op => (op.run env f).2) f := by
  induction h with
  | nil => rfl
  | snoc h1 h2 h3 h4 ih => rw [List.foldl_append, ← ih]; simp [h2]

/-- The keys of the directory are the accepted objects, in order. -/
theorem keys_accepted {env : Env} {path : Str} {ops : List Op} {f0 f : FileW} (hi : Inv path f0)
    (h0 : f0.dir.keys = []) (h : Runs env f0 ops f) :
    f.dir.keys.map (fun k => (k.name, k.cls, k.title)) =
      (acceptedPuts env f0 ops).map (fun p => (p.1, p.2.cls, p.2.title)) := by
  induction h with
  | nil => simp [h0, acceptedPuts]
  | @snoc ops g1 op r g' h1 h2 h3 h4 ih =>
    have hi1 := runs_inv hi h1
    rw [acceptedPuts_snoc, ← h1.end_eq]
    rcases step_dir hi1 h2 h3 h4 with ⟨hk, hno⟩ | ⟨name, obj, c, m, w, k, rfl, rfl, -, -, rfl, hk⟩
    · have : op.accepted env g1 = [] := by
        unfold Op.accepted
        rw [h2]
        cases op with
        | put name obj =>
          rcases r with e | u
          · rfl
          · exact absurd rfl (hno name obj rfl)
        | basket b => rfl
        | register si => rfl
      rw [this, hk, List.append_nil]
      exact ih
    · have : (Op.put name obj).accepted env g1 = [(storedName name obj, obj)] := by
        unfold Op.accepted
        rw [h2]
      rw [hk, this, List.map_append, ih]
      simp [Key.at, putName, storedName]

/-- The cycles of the keys. -/
def CyclesOk (keys : List Key) : Prop :=
  ∀ i k, keys[i]? = some k →
    (keys.take i).countP (fun q => q.name = k.name) < 32767 →
    k.cycle = ((keys.take i).countP (fun q => q.name = k.name) : Int) + 1

theorem last_counted {α} {p : α → Bool} {l : List α} (h : 0 < l.countP p) :
    ∃ i a, l[i]? = some a ∧ p a = true ∧ (l.take i).countP p + 1 = l.countP p := by
  induction l with
  | nil => simp at h
  | cons a l ih =>
    rcases Nat.eq_zero_or_pos (l.countP p) with hz | hz
    · have hp : p a = true := by
        cases hp : p a with
        | true => rfl
        | false => rw [List.countP_cons_of_neg (by simp [hp])] at h; omega
      exact ⟨0, a, rfl, hp, by rw [List.countP_cons_of_pos hp]; simp [hz]⟩
    · obtain ⟨i, b, h1, h2, h3⟩ := ih hz
      refine ⟨i + 1, b, h1, h2, ?_⟩
      rw [List.take_succ_cons, List.countP_cons, List.countP_cons]
      omega

theorem lastCycle_count {name cls : Str} {keys : List Key} {c : Int} (hc : CyclesOk keys)
    (h : lastCycle name cls keys 0 = some c) (hn : keys.countP (fun q => q.name = name) ≤ 32767) :
    c = keys.countP (fun q => q.name = name) := by
  obtain ⟨h1, h2, h3⟩ := lastCycle_some h
  have key : ∀ i k, keys[i]? = some k → k.name = name →
      (keys.take i).countP (fun q => q.name = name) + 1 ≤ keys.countP (fun q => q.name = name) := by
    intro i k hk hkn
    have hlt : i < keys.length := (List.getElem?_eq_some_iff.1 hk).1
    have e : keys = keys.take i ++ k :: keys.drop (i + 1) := by
      rw [← (List.getElem?_eq_some_iff.1 hk).2]
      simp
    conv => rhs; rw [e]
    rw [List.countP_append, List.countP_cons_of_pos (by simpa using hkn)]
    omega
  -- the largest is at most the number of keys
  have hle : c ≤ keys.countP (fun q => q.name = name) := by
    rcases h3 with rfl | ⟨k, hk, hkn, rfl⟩
    · omega
    · obtain ⟨i, hi⟩ := List.mem_iff_getElem?.1 hk
      have := key i k hi hkn
      have h5 := hc i k hi (by rw [hkn]; omega)
      rw [hkn] at h5
      omega
  -- the last key of that name has that cycle
  rcases Nat.eq_zero_or_pos (keys.countP (fun q => q.name = name)) with hz | hz
  · omega
  · obtain ⟨i, k, hk, hkn, hcnt⟩ := last_counted hz
    have hkn : k.name = name := by simpa using hkn
    have h5 := hc i k hk (by rw [hkn]; omega)
    rw [hkn] at h5
    have := (h2 k (List.mem_iff_getElem?.2 ⟨i, hk⟩) hkn).1
    omega


theorem CyclesOk.snoc {keys : List Key} {k : Key} {cls : Str} {c : Int} (hc : CyclesOk keys)
    (h : lastCycle k.name cls keys 0 = some c) (hk : k.cycle = asI 2 (c + 1)) :
    CyclesOk (keys ++ [k]) := by
  intro i k' hi hlt
  rcases Nat.lt_or_ge i keys.length with hl | hl
  · rw [List.getElem?_append_left hl] at hi
    rw [List.take_append_of_le_length (by omega)] at hlt ⊢
    exact hc i k' hi hlt
  · have hlen := (List.getElem?_eq_some_iff.1 hi).1
    simp at hlen
    have : i = keys.length := by omega
    subst this
    simp at hi
    subst hi
    rw [List.take_append_of_le_length (Nat.le_refl _), List.take_length] at hlt ⊢
    have := lastCycle_count hc h (by omega)
    rw [hk, ← this]
    exact asI_of (by decide) (by constructor <;> omega)

theorem cycles_ok {env : Env} {path : Str} {ops : List Op} {f0 f : FileW} (hi : Inv path f0)
    (h0 : f0.dir.keys = []) (h : Runs env f0 ops f) : CyclesOk f.dir.keys := by
  induction h with
  | nil => rw [h0]; intro i k hk; simp at hk
  | @snoc ops g1 op r g' h1 h2 h3 h4 ih =>
    rcases step_dir (runs_inv hi h1) h2 h3 h4 with ⟨hk, -⟩ | ⟨name, obj, c, m, w, k, -, -, hc, -, rfl, hk⟩
    · rw [hk]; exact ih
    · rw [hk]
      exact ih.snoc (cls := obj.cls) hc rfl

/-- C17: in any session, the cycles of the keys of one name are 1, 2, 3, ... in the order in which they
were stored (up to the limit of the 16 bit field). -/
theorem C17_cycles {env : Env} {path : Str} {ops : List Op} {f : FileW} (h : Session env path ops f)
    (i : Nat) (k : Key) (hk : f.dir.keys[i]? = some k)
    (hlim : (f.dir.keys.take i).countP (fun q => q.name = k.name) < 32767) :
    k.cycle = ((f.dir.keys.take i).countP (fun q => q.name = k.name) : Int) + 1 := by
  obtain ⟨ids, f0, hc, hb, hr⟩ := h
  obtain ⟨rfl, hl⟩ := create_ok hc hb.end_
  exact cycles_ok (Inv.created hl) rfl hr i k hk hlim

/-- C17: an accepted `put` adds one key, of the class of the object, with a cycle one above the largest
cycle of that name; no key of that name has another class. -/
theorem C17_accepted {env : Env} {path name : Str} {ops : List Op} {obj : PutObj} {f f1 : FileW}
    {u : Unit} (h : Session env path ops f) (hput : put env name obj f = (.ok u, f1))
    (hb : f1.Below2GB)
    (hfew : f.dir.keys.countP (fun q => q.name = storedName name obj) < 32767) :
    ∃ k c, f1.dir.keys = f.dir.keys ++ [k] ∧ k.name = storedName name obj ∧ k.cls = obj.cls ∧
      k.title = obj.title ∧ LargestCycle f.dir.keys (storedName name obj) c ∧ k.cycle = c + 1 ∧
      (∀ k' ∈ f.dir.keys, k'.name = k.name → k'.cls = k.cls) := by
  obtain ⟨hi1, c, m, w, k, hc, hm, hk, hd, ht, hp⟩ := put_inv (session_inv h) hput hb
  obtain ⟨h1, h2, h3⟩ := lastCycle_some hc
  have hcy : CyclesOk f.dir.keys := fun i k hk hl => C17_cycles h i k hk hl
  have hcc := lastCycle_count hcy hc (Nat.le_of_lt hfew)
  have hcc' : c = f.dir.keys.countP (fun q => q.name = storedName name obj) := hcc
  subst hk
  refine ⟨_, c, hd, rfl, rfl, rfl, ⟨fun k hk hn => (h2 k hk hn).1, ?_⟩, ?_,
    fun k' hk' hn => (h2 k' hk' hn).2⟩
  · rcases Nat.eq_zero_or_pos (f.dir.keys.countP (fun q => q.name = storedName name obj)) with hz | hz
    · refine Or.inr ⟨fun k hk hn => ?_, by omega⟩
      have := List.countP_eq_zero.1 hz k hk
      simp [hn] at this
    · obtain ⟨i, k, hk, hkn, hcnt⟩ := last_counted hz
      have hkn : k.name = storedName name obj := by simpa using hkn
      refine Or.inl ⟨k, List.mem_iff_getElem?.2 ⟨i, hk⟩, hkn, ?_⟩
      have := hcy i k hk (by rw [hkn]; omega)
      rw [hkn] at this
      omega
  · exact asI_of (by decide) (by constructor <;> omega)

/-- C17, beyond the limit: when a name has been used 32767 times the next cycle is negative. -/
theorem C17_overflow {env : Env} {path name : Str} {ops : List Op} {obj : PutObj} {f f1 : FileW}
    {u : Unit} (h : Session env path ops f) (hput : put env name obj f = (.ok u, f1))
    (hb : f1.Below2GB)
    (hmany : f.dir.keys.countP (fun q => q.name = storedName name obj) = 32767) :
    ∃ k, f1.dir.keys = f.dir.keys ++ [k] ∧ k.name = storedName name obj ∧ k.cycle = -32768 := by
  obtain ⟨hi1, c, m, w, k, hc, hm, hk, hd, ht, hp⟩ := put_inv (session_inv h) hput hb
  have hcy : CyclesOk f.dir.keys := fun i k hk hl => C17_cycles h i k hk hl
  have hcc : c = 32767 := by
    have := lastCycle_count hcy hc (Nat.le_of_eq hmany)
    have e : f.dir.keys.countP (fun q => q.name = putName name obj) = 32767 := hmany
    omega
  subst hk
  refine ⟨_, hd, rfl, ?_⟩
  show asI 2 (c + 1) = _
  rw [hcc]
  rfl

/-- C17: a name with a slash is refused, whatever the state, and nothing changes. -/
theorem C17_slash (env : Env) (name : Str) (obj : PutObj) (f : FileW) (h : (47 : Byte) ∈ name) :
    put env name obj f = (.error (.err .nameContainsSlash), f) := by
  unfold put
  rw [if_pos h]
  rfl

/-- C17: an object of another class than the key of that name is refused, whatever the state, and
nothing changes. -/
theorem C17_class (env : Env) (name : Str) (obj : PutObj) (f : FileW) (hs : (47 : Byte) ∉ name)
    (h : ∃ k ∈ f.dir.keys, k.name = storedName name obj ∧ k.cls ≠ obj.cls) :
    put env name obj f = (.error (.err .keyClassMismatch), f) := by
  unfold put
  rw [if_neg hs, Fs.bind_of_ok (Fs.ok_get.2 ⟨rfl, rfl⟩)]
  have : lastCycle (if name = [] then obj.name else name) obj.cls f.dir.keys 0 = none :=
    lastCycle_none h
  simp only [this]
  rfl

/-- C17: whatever the reason, a `put` that returns an error adds no key, writes nothing and does not
move the end of the file. -/
theorem C17_refused {env : Env} {path name : Str} {ops : List Op} {obj : PutObj} {f f1 : FileW}
    {e : Err} (h : Session env path ops f) (hput : put env name obj f = (.error (.err e), f1)) :
    f1.dir = f.dir ∧ f1.trace = f.trace ∧ f1.header = f.header := by
  rcases put_err (session_inv h).good hput with rfl | ha
  · exact ⟨rfl, rfl, rfl⟩
  · rw [ha.same]
    exact ⟨rfl, rfl, rfl⟩

/-- The cases occur: two versions, a slash, another class. -/
example : demoOpen.dir.keys.map Key.cycle = [1, 2] ∧
    (put demoEnv (b! "a/b") (demoObj 3) demoOpen).1 = .error (.err .nameContainsSlash) ∧
    (∃ k ∈ demoOpen.dir.keys, k.name = storedName (b! "o") { demoObj 3 with cls := b! "B" } ∧
      k.cls ≠ ({ demoObj 3 with cls := b! "B" } : PutObj).cls) ∧
    isOk (put demoEnv (b! "o") (demoObj 3) demoOpen).1 = true ∧
    below2GB (put demoEnv (b! "o") (demoObj 3) demoOpen).2 = true :=
  ⟨by decide +kernel, by rw [C17_slash _ _ _ _ (by decide)], by decide +kernel, by decide +kernel,
    by decide +kernel⟩

end Verif
