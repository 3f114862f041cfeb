import Verif.Spec.Layout
/-
A small session used to show that the hypotheses of the theorems can be met: an object is stored
twice, a name is refused, and a basket with a table of offsets is stored; then the file is closed.
-/
namespace Verif

/-- The description of class `A` with one integer. -/
def demoInfo : StreamerInfo where
  named := { name := b! "A" }
  clsver := 1
  elems := [.basicType { named := { name := b! "x" }, etype := .named .int, esize := 4,
                         ename := b! "int" }]

/-- A dictionary with this class only. -/
def demoEnv : Env where
  db name _ := if name = b! "A" then some demoInfo else none
  addr n := 2 * n + 1000

/-- An object of class `A`. -/
def demoObj (v : Int) : PutObj :=
  ⟨b! "o", b! "t", b! "A", 1, Wr.counted (Wr.i32 v)⟩

/-- A basket with two entries of three bytes in all. -/
def demoBasket : WBasket where
  basket := { key := { name := b! "br", title := b! "tree", cls := b! "TBasket", cycle := 1
                       keyLen := 64 }
              nevBuf := 2, nevSize := 1000, bufSize := 100, offsets := [64, 65, 0, 0] }
  wbuf := { p := [7, 8, 9], c := 3 }

def demoOps : List Op :=
  [.put (b! "o") (demoObj 5), .basket demoBasket, .put (b! "a/b") (demoObj 6), .put [] (demoObj 7)]

/-- The open file, computed. -/
def demoOpen : FileW :=
  (demoOps.foldl (fun f op => (op.run demoEnv f).2) (createFile (FileW.initial (b! "d.root") 10)).2)

/-- The closed file, computed. -/
def demoClosed : FileW := (closeFile demoEnv demoOpen).2

/-- The result is a value. -/
def isOk {α} : Res α → Bool
  | .ok _ => true
  | .error _ => false

/-- The result is an abort. -/
def isPanic {α} : Res α → Bool
  | .error .panic => true
  | _ => false

/-- The bound of `FileW.Below2GB`, computed. -/
def below2GB (f : FileW) : Bool :=
  f.header.end_ ≤ 2000000000 && f.trace.all fun w => w.pos + w.data.length ≤ 2000000000

theorem below2GB_iff {f : FileW} : below2GB f = true ↔ f.Below2GB := by
  simp only [below2GB, Bool.and_eq_true, decide_eq_true_eq, List.all_eq_true]
  exact ⟨fun h => ⟨h.1, h.2⟩, fun h => ⟨h.1, h.2⟩⟩

theorem ok_pair {f : FileW} {m : Fs Unit} (h : isOk (m f).1 = true) : m f = (.ok (), (m f).2) := by
  generalize m f = x at h
  obtain ⟨(e | u), f'⟩ := x
  · cases h
  · rfl

/-- All the calls of a list, checked one by one. -/
def runsOk (env : Env) : FileW → List Op → Bool
  | _, [] => true
  | f, op :: ops =>
    !isPanic (op.run env f).1 && below2GB (op.run env f).2 && runsOk env (op.run env f).2 ops

theorem runs_of_check {env : Env} {ops : List Op} {f : FileW} (h : runsOk env f ops = true) :
    Runs env f ops (ops.foldl (fun f op => (op.run env f).2) f) := by
  suffices ∀ f0 pre, Runs env f0 pre f →
      Runs env f0 (pre ++ ops) (ops.foldl (fun f op => (op.run env f).2) f) from
    this f [] .nil
  intro f0 pre hp
  induction ops generalizing f pre with
  | nil => rw [List.append_nil]; exact hp
  | cons op ops ih =>
    simp only [runsOk, Bool.and_eq_true, Bool.not_eq_true'] at h
    have h1 : Runs env f0 (pre ++ [op]) (op.run env f).2 :=
      .snoc hp (r := (op.run env f).1) rfl (fun e => by
        have h' := h.1.1
        rw [e] at h'
        cases h') (below2GB_iff.1 h.1.2)
    have := ih h.2 _ h1
    rw [List.append_assoc] at this
    exact this

theorem demo_session : Session demoEnv (b! "d.root") demoOps demoOpen :=
  ⟨10, _, ok_pair (by decide +kernel), below2GB_iff.1 (by decide +kernel),
    runs_of_check (by decide +kernel)⟩

theorem demo_closes : Closes demoEnv demoOpen demoClosed :=
  ⟨ok_pair (by decide +kernel), below2GB_iff.1 (by decide +kernel)⟩

end Verif
