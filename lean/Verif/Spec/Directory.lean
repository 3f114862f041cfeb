import Verif.Spec.Session
/-
What a directory records, said without the code.
-/
namespace Verif

/-- `c` is the largest cycle of the keys called `name`, or 0 when there is none. -/
structure LargestCycle (keys : List Key) (name : Str) (c : Int) : Prop where
  above : ∀ k ∈ keys, k.name = name → k.cycle ≤ c
  used : (∃ k ∈ keys, k.name = name ∧ k.cycle = c) ∨ ((∀ k ∈ keys, k.name ≠ name) ∧ c = 0)

/-- The name an object is stored under. -/
def storedName (name : Str) (obj : PutObj) : Str := if name = [] then obj.name else name

/-- The object stored by a call on `f`, if it is a `put` and succeeds, and the name it gets. -/
def Op.accepted (env : Env) (f : FileW) (op : Op) : List (Str × PutObj) :=
  match op, (op.run env f).1 with
  | .put name obj, .ok _ => [(storedName name obj, obj)]
  | _, _ => []

/-- The objects whose `put` succeeded when the calls are made one after the other on `f`. -/
def acceptedPuts (env : Env) : FileW → List Op → List (Str × PutObj)
  | _, [] => []
  | f, op :: ops => op.accepted env f ++ acceptedPuts env (op.run env f).2 ops

/-- The cycle of the `i`-th accepted object: one more than the number of earlier ones with its name. -/
def expectedCycle (puts : List (Str × PutObj)) (i : Nat) : Int :=
  match puts[i]? with
  | some p => ((puts.take i).countP (fun q => q.1 = p.1) : Int) + 1
  | none => 0

/-- No name has been used more often than cycles can count. -/
def FewPerName (puts : List (Str × PutObj)) : Prop :=
  ∀ name, puts.countP (fun q => q.1 = name) ≤ 32767

/-- The contents of a class record: everything but the numbers that identify it and its elements in the
writing process, which a copy does not share. -/
def StreamerInfo.contents (s : StreamerInfo) : StreamerInfo :=
  { s with id := 0, elems := s.elems.map (Streamer.withId 0) }

/-- The records a list of registrations must leave: the first one of each class name, in order. -/
structure FirstOfEachName (regs kept : List StreamerInfo) : Prop where
  order : kept.Sublist regs
  once : (kept.map StreamerInfo.name).Nodup
  all : ∀ s ∈ regs, s.name ∈ kept.map StreamerInfo.name
  first : ∀ s ∈ kept, regs.find? (fun r => r.name = s.name) = some s

end Verif
