import Verif.Spec.Interpret
import Verif.Lemmas.CppNames
/-
From C++ names to Rust names.
-/
namespace Verif

/-! ### Finding -/

theorem findStr_absent {pat : Str} {x : Byte} (hx : x ∈ pat) : ∀ {s : Str}, x ∉ s → findStr pat s = none := by
  intro s
  induction s with
  | nil => intro _; unfold findStr; rw [if_neg (List.ne_nil_of_mem hx)]
  | cons b s ih =>
    intro h
    unfold findStr
    rw [if_neg, ih fun hm => h (List.mem_cons_of_mem _ hm)]
    · rfl
    · intro hp
      exact h ((List.isPrefixOf_iff_prefix.1 hp).subset hx)

theorem replaceAll_none {pat to : Str} (f : Nat) : ∀ {s : Str}, findStr pat s = none → replaceAll pat to f s = s := by
  induction f with
  | zero => intro s _; rfl
  | succ f ih =>
    intro s h
    cases s with
    | nil => rfl
    | cons b s =>
      unfold findStr at h
      split at h
      · cases h
      · next hp =>
        unfold replaceAll
        rw [if_neg (fun hc => hp hc.2), ih (Option.map_eq_none_iff.1 h)]

theorem replaceStr_none {pat to s : Str} (h : findStr pat s = none) : replaceStr s pat to = s := replaceAll_none _ h

theorem replaceStr_self {s to : Str} (h : s ≠ []) : replaceStr s s to = to := by
  unfold replaceStr
  obtain ⟨b, s, rfl⟩ := List.exists_cons_of_ne_nil h
  show replaceAll _ _ (s.length + 1) _ = _
  unfold replaceAll
  rw [if_pos ⟨h, List.isPrefixOf_iff_prefix.2 (List.prefix_refl _)⟩, List.drop_length]
  cases s.length <;> simp [replaceAll]

theorem findStr_split {pat : Str} {c : Byte} (hp : pat ≠ []) (hc : c ∉ pat) (b : Str) : ∀ a : Str,
    findStr pat (a ++ c :: b) = match findStr pat a with
      | some i => some i
      | none => (findStr pat b).map (· + (a.length + 1)) := by
  intro a
  induction a with
  | nil =>
    show findStr pat (c :: b) = _
    have h0 : findStr pat [] = none := by unfold findStr; rw [if_neg hp]
    rw [h0]
    conv => lhs; unfold findStr
    rw [if_neg]
    · rfl
    · intro h
      cases pat with
      | nil => exact hp rfl
      | cons p pat =>
        simp only [List.isPrefixOf, Bool.and_eq_true, beq_iff_eq] at h
        exact hc (h.1 ▸ List.mem_cons_self ..)
  | cons x a ih =>
    show findStr pat (x :: (a ++ c :: b)) = _
    conv => lhs; unfold findStr
    have e : pat.isPrefixOf (x :: (a ++ c :: b)) = pat.isPrefixOf (x :: a) := isPrefixOf_split (a := x :: a) hc
    rw [e]
    by_cases h : pat.isPrefixOf (x :: a) = true
    · have : findStr pat (x :: a) = some 0 := by unfold findStr; rw [if_pos h]
      rw [if_pos h, this]
    · have : findStr pat (x :: a) = (findStr pat a).map (· + 1) := by conv => lhs; unfold findStr; rw [if_neg h]
      rw [if_neg h, this, ih]
      cases findStr pat a with
      | some i => rfl
      | none =>
        cases findStr pat b with
        | none => rfl
        | some j => simp only [Option.map_some, Option.map_none, List.length_cons]; congr 1

/-- Where `x[y` can begin in `q[rest`. -/
theorem findStr_bracket {x y rest : Str} (hx : (91 : Byte) ∉ x) (hr : (91 : Byte) ∉ rest) :
    ∀ {q : Str}, (91 : Byte) ∉ q → (x <:+ q → y.isPrefixOf rest = false) → findStr (x ++ 91 :: y) (q ++ 91 :: rest) = none := by
  intro q
  induction q with
  | nil =>
    intro _ h
    show findStr _ (91 :: rest) = none
    unfold findStr
    rw [if_neg, findStr_absent (x := 91) (by simp) hr]
    · rfl
    · intro hp
      cases x with
      | nil =>
        rw [List.nil_append, List.isPrefixOf, Bool.and_eq_true] at hp
        rw [h (List.suffix_refl _)] at hp
        cases hp.2
      | cons a x =>
        simp only [List.cons_append, List.isPrefixOf, Bool.and_eq_true, beq_iff_eq] at hp
        exact hx (hp.1 ▸ List.mem_cons_self ..)
  | cons a q ih =>
    intro hq h
    show findStr _ (a :: (q ++ 91 :: rest)) = none
    unfold findStr
    rw [if_neg, ih (fun hm => hq (List.mem_cons_of_mem _ hm)) fun hs => h (hs.trans (List.suffix_cons ..))]
    · rfl
    · intro hp
      have key : ∀ {x q : Str}, (91 : Byte) ∉ x → (91 : Byte) ∉ q → (x ++ 91 :: y).isPrefixOf (q ++ 91 :: rest) = true →
          x = q ∧ y.isPrefixOf rest = true := by
        intro x
        induction x with
        | nil =>
          intro q _ hq hp
          cases q with
          | nil => simp only [List.nil_append, List.isPrefixOf, Bool.and_eq_true] at hp; exact ⟨rfl, hp.2⟩
          | cons b q =>
            simp only [List.nil_append, List.cons_append, List.isPrefixOf, Bool.and_eq_true, beq_iff_eq] at hp
            exact absurd (hp.1 ▸ List.mem_cons_self ..) hq
        | cons b x ih =>
          intro q hx hq hp
          cases q with
          | nil =>
            simp only [List.nil_append, List.cons_append, List.isPrefixOf, Bool.and_eq_true, beq_iff_eq] at hp
            exact absurd (hp.1 ▸ List.mem_cons_self ..) hx
          | cons d q =>
            simp only [List.cons_append, List.isPrefixOf, Bool.and_eq_true, beq_iff_eq] at hp
            obtain ⟨rfl, h2⟩ := ih (fun hm => hx (List.mem_cons_of_mem _ hm)) (fun hm => hq (List.mem_cons_of_mem _ hm)) hp.2
            exact ⟨by rw [hp.1], h2⟩
      obtain ⟨rfl, h2⟩ := key hx hq hp
      rw [h (List.suffix_refl _)] at h2
      cases h2

/-! ### Nesting -/

/-- `w<w<...<s>...>>`. -/
def nest (w : Str) : Nat → Str → Str
  | 0, s => s
  | k + 1, s => w ++ 60 :: (nest w k s ++ [62])

theorem replaceStr_nil (pat to : Str) : replaceStr [] pat to = [] := rfl

theorem replaceStr_nest {w s pat to : Str} (hp : pat ≠ []) (h1 : (60 : Byte) ∉ pat) (h2 : (62 : Byte) ∉ pat) (k : Nat) :
    replaceStr (nest w k s) pat to = nest (replaceStr w pat to) k (replaceStr s pat to) := by
  induction k with
  | zero => rfl
  | succ k ih =>
    unfold nest
    rw [replaceStr_split hp h1, replaceStr_split hp h2, ih, replaceStr_nil]

theorem clean_nil : cleanTypeName [] = [] := rfl

theorem clean_nest {w s : Str} (k : Nat) : cleanTypeName (nest w k s) = nest (cleanTypeName w) k (cleanTypeName s) := by
  induction k with
  | zero => rfl
  | succ k ih =>
    unfold nest
    rw [clean_split _ _ (Or.inl rfl), clean_split _ _ (Or.inr (Or.inl rfl)), ih, clean_nil]

theorem findStr_nest {w s pat : Str} (hp : pat ≠ []) (h1 : (60 : Byte) ∉ pat) (h2 : (62 : Byte) ∉ pat)
    (hw : findStr pat w = none) (k : Nat) : findStr pat (nest w k s) = (findStr pat s).map (· + k * (w.length + 1)) := by
  induction k with
  | zero => cases h : findStr pat s <;> simp [nest, h]
  | succ k ih =>
    unfold nest
    rw [findStr_split hp h1, hw]
    dsimp only
    rw [findStr_split hp h2, ih]
    have : findStr pat [] = none := by unfold findStr; rw [if_neg hp]
    rw [this]
    cases findStr pat s with
    | none => rfl
    | some i =>
      simp only [Option.map_some]
      congr 1
      rw [Nat.add_mul]
      omega

theorem drop_nest {w s : Str} (n : Nat) (hn : n ≤ s.length) (k : Nat) :
    (nest w k s).drop (k * (w.length + 1) + n) = s.drop n ++ List.replicate k 62 := by
  induction k with
  | zero => simp [nest]
  | succ k ih =>
    unfold nest
    have hl : ∀ k, (nest w k s).length = k * (w.length + 1) + s.length + k := by
      intro k
      induction k with
      | zero => simp [nest]
      | succ k ih => simp only [nest, List.length_append, List.length_cons, ih, List.length_nil]; rw [Nat.add_mul]; omega
    have e : (k + 1) * (w.length + 1) + n = w.length + (1 + (k * (w.length + 1) + n)) := by rw [Nat.add_mul]; omega
    rw [e, ← List.drop_drop, List.drop_left, ← List.drop_drop, List.drop_one, List.tail_cons,
      List.drop_append_of_le_length (by rw [hl]; omega), ih, List.append_assoc, ← List.replicate_succ']

/-! ### The forms a name goes through -/

/-- A name, a name with a dimension, an array. -/
inductive Form
  | plain (p : Str)
  | dim (p : Str)
  | arr (p : Str)
deriving DecidableEq

namespace Form

def render (ds : Str) : Form → Str
  | plain p => p
  | dim p => p ++ 91 :: (ds ++ [93])
  | arr p => [] ++ 91 :: (p ++ 59 :: (ds ++ [93]))

def name : Form → Str
  | plain p | dim p | arr p => p

def map (f : Str → Str) : Form → Form
  | plain p => plain (f p)
  | dim p => dim (f p)
  | arr p => arr (f p)

def step (p : Str × Str) (S : Form) : Form :=
  match S.map fun s => replaceStr s p.1 p.2 with
  | dim q => if q = p.2 then arr q else dim q
  | S => S

/-- Nothing in the name is in the way. -/
def fine (p : Str × Str) (S : Form) : Bool :=
  let q := replaceStr S.name p.1 p.2
  !q.contains 91 && !q.contains 93 && !q.contains 60 && !q.contains 62 && (q = p.2 || !p.2.isSuffixOf q)

end Form

/-- Digits and a closing bracket. -/
def Quiet (t : Str) : Prop := ∀ c ∈ t, isDigitByte c = true ∨ c = 93

/-- A word that is replaced. -/
def Word (pat : Str) : Bool :=
  pat ≠ [] && !pat.contains 91 && !pat.contains 59 && !pat.contains 60 && !pat.contains 62 &&
    pat.head?.all fun c => !isDigitByte c && c ≠ 93

theorem replaceStr_quiet {pat to t : Str} (hp : Word pat = true) (ht : Quiet t) : replaceStr t pat to = t := by
  refine replaceAll_absent _ _ fun x hx hm => ?_
  simp only [Word, Bool.and_eq_true, hx, Option.all_some] at hp
  rcases ht x hm with h | h
  · rw [h] at hp; simp at hp
  · subst h; simp at hp

theorem Form.replace {pat to ds : Str} (hp : Word pat = true) (hd : Quiet ds) (S : Form) :
    replaceStr (S.render ds) pat to = (S.map fun s => replaceStr s pat to).render ds := by
  have hq : Quiet (ds ++ [93]) := by
    intro c hc
    rcases List.mem_append.1 hc with h | h
    · exact hd c h
    · exact Or.inr (List.mem_singleton.1 h)
  have hw := hp
  simp only [Word, Bool.and_eq_true, Bool.not_eq_true', decide_eq_true_eq, List.contains_eq_mem, decide_eq_false_iff_not] at hw
  obtain ⟨⟨⟨⟨⟨h0, h1⟩, h2⟩, -⟩, -⟩, -⟩ := hw
  cases S with
  | plain p => rfl
  | dim p =>
    show replaceStr (p ++ 91 :: (ds ++ [93])) pat to = _
    rw [replaceStr_split h0 h1, replaceStr_quiet hp hq]
    rfl
  | arr p =>
    show replaceStr ([] ++ 91 :: (p ++ 59 :: (ds ++ [93]))) pat to = _
    rw [replaceStr_split h0 h1, replaceStr_split h0 h2, replaceStr_quiet hp hq]
    rfl

/-- One round of the conversion. -/
theorem Form.rustStep {p : Str × Str} {w ds : Str} {S : Form} (h1 : Word p.1 = true) (h2 : Word p.2 = true)
    (hw : replaceStr w p.1 p.2 = w) (hw' : (91 : Byte) ∉ w) (hd : ∀ c ∈ ds, isDigitByte c = true) (hds : ds ≠ [])
    (hS : S.fine p = true) (k : Nat) :
    Verif.rustStep p (nest w k (S.render ds)) = .ok (nest w k ((S.step p).render ds)) := by
  have hq : Quiet ds := fun c hc => Or.inl (hd c hc)
  have n91 : (91 : Byte) ∉ ds := fun h => absurd (hd _ h) (by decide)
  have n93 : (93 : Byte) ∉ ds := fun h => absurd (hd _ h) (by decide)
  have n60 : (60 : Byte) ∉ ds := fun h => absurd (hd _ h) (by decide)
  have n62 : (62 : Byte) ∉ ds := fun h => absurd (hd _ h) (by decide)
  have w1 := h1
  have w2 := h2
  simp only [Word, Bool.and_eq_true, Bool.not_eq_true', decide_eq_true_eq, List.contains_eq_mem, decide_eq_false_iff_not] at w1 w2
  obtain ⟨⟨⟨⟨⟨a0, -⟩, -⟩, a3⟩, a4⟩, -⟩ := w1
  obtain ⟨⟨⟨⟨⟨b0, b1⟩, -⟩, b3⟩, b4⟩, -⟩ := w2
  obtain ⟨cpp, rust⟩ := p
  dsimp only at *
  unfold Verif.rustStep
  dsimp only
  rw [replaceStr_nest a0 a3 a4, hw, Form.replace h1 hq]
  have hname : (S.map fun s => replaceStr s cpp rust).name = replaceStr S.name cpp rust := by cases S <;> rfl
  unfold Form.fine at hS
  dsimp only at hS
  rw [← hname] at hS
  unfold Form.step
  dsimp only
  generalize (S.map fun s => replaceStr s cpp rust) = T at hS
  simp only [Bool.and_eq_true, Bool.not_eq_true', decide_eq_true_eq, List.contains_eq_mem, decide_eq_false_iff_not,
    Bool.or_eq_true] at hS
  obtain ⟨⟨⟨⟨q1, q2⟩, q3⟩, q4⟩, q5⟩ := hS
  have hsuf : rust <:+ T.name → T.name = rust := by
    intro h
    rcases q5 with h' | h'
    · exact h'
    · rw [List.isSuffixOf_iff_suffix.2 h] at h'; cases h'
  have e1 : rust ++ b! "[]" = rust ++ 91 :: [93] := rfl
  have e2 : rust ++ b! "[" = rust ++ 91 :: [] := rfl
  have hnil : ∀ y : Str, rust ++ 91 :: y ≠ [] := fun y => by simp
  have hw91 : ∀ y : Str, findStr (rust ++ 91 :: y) w = none := fun y => findStr_absent (x := 91) (by simp) hw'
  have hb60 : ∀ y : Str, (60 : Byte) ∉ y → (60 : Byte) ∉ rust ++ 91 :: y := by
    intro y hy h
    rcases List.mem_append.1 h with h | h
    · exact b3 h
    · rcases List.mem_cons.1 h with h | h
      · exact absurd h (by decide)
      · exact hy h
  have hb62 : ∀ y : Str, (62 : Byte) ∉ y → (62 : Byte) ∉ rust ++ 91 :: y := by
    intro y hy h
    rcases List.mem_append.1 h with h | h
    · exact b4 h
    · rcases List.mem_cons.1 h with h | h
      · exact absurd h (by decide)
      · exact hy h
  have hrest : (91 : Byte) ∉ ds ++ [93] := by
    intro h
    rcases List.mem_append.1 h with h | h
    · exact n91 h
    · exact absurd (List.mem_singleton.1 h) (by decide)
  have hsl : findStr (rust ++ 91 :: [93]) (T.render ds) = none := by
    cases T with
    | plain q => exact findStr_absent (x := 91) (by simp) q1
    | dim q =>
      refine findStr_bracket b1 hrest q1 fun _ => ?_
      obtain ⟨d, ds, rfl⟩ := List.exists_cons_of_ne_nil hds
      have : d ≠ 93 := fun e => n93 (e ▸ List.mem_cons_self ..)
      simp [List.isPrefixOf, this.symm]
    | arr q =>
      refine findStr_bracket b1 ?_ (List.not_mem_nil) fun h => absurd (List.suffix_nil.1 h) b0
      intro h
      rcases List.mem_append.1 h with h | h
      · exact q1 h
      · rcases List.mem_cons.1 h with h | h
        · exact absurd h (by decide)
        · exact hrest h
  rw [e1, replaceStr_none (by rw [findStr_nest (hnil _) (hb60 _ (by decide)) (hb62 _ (by decide)) (hw91 _), hsl]; rfl)]
  rw [e2, findStr_nest (hnil _) (hb60 _ List.not_mem_nil) (hb62 _ List.not_mem_nil) (hw91 _)]
  by_cases hT : ∃ q, T = .dim q ∧ q = rust
  · obtain ⟨q, rfl, rfl⟩ := hT
    dsimp only
    rw [if_pos rfl]
    have hf : findStr (q ++ 91 :: []) ((Form.dim q).render ds) = some 0 := by
      show findStr _ (q ++ 91 :: (ds ++ [93])) = _
      obtain ⟨x, q, rfl⟩ := List.exists_cons_of_ne_nil b0
      show findStr _ (x :: _) = _
      unfold findStr
      rw [if_pos]
      exact List.isPrefixOf_iff_prefix.2 ⟨ds ++ [93], by simp⟩
    rw [hf]
    dsimp only [Option.map_some]
    have hdr : (nest w k ((Form.dim q).render ds)).drop (0 + k * (w.length + 1) + q.length + 1) =
        ds ++ 93 :: List.replicate k 62 := by
      have := drop_nest (w := w) (s := (Form.dim q).render ds) (q.length + 1) (by simp [Form.render]) k
      rw [show 0 + k * (w.length + 1) + q.length + 1 = k * (w.length + 1) + (q.length + 1) by omega, this]
      show (q ++ 91 :: (ds ++ [93])).drop (q.length + 1) ++ _ = _
      rw [← List.drop_drop, List.drop_left, List.drop_one, List.tail_cons, List.append_assoc]
      rfl
    rw [hdr]
    have hin : (ds ++ 93 :: List.replicate k 62).takeWhile (fun c => decide (c ≠ 93)) = ds := by
      rw [takeWhile_all fun c hc => by simp only [decide_eq_true_eq]; exact fun e => n93 (e ▸ hc), List.takeWhile_cons,
        if_neg (by decide), List.append_nil]
    rw [if_neg, hin, if_neg (by simp)]
    · have e3 : q ++ 91 :: [] ++ ds ++ b! "]" = q ++ 91 :: (ds ++ [93]) := by simp
      rw [e3, replaceStr_nest (hnil _) (hb60 _ _) (hb62 _ _), replaceStr_none (hw91 _)]
      · show Except.ok (nest w k (replaceStr (q ++ 91 :: (ds ++ [93])) _ _)) = _
        rw [replaceStr_self (hnil _)]
        simp [Form.render]
      · intro h
        rcases List.mem_append.1 h with h | h
        · exact n60 h
        · exact absurd (List.mem_singleton.1 h) (by decide)
      · intro h
        rcases List.mem_append.1 h with h | h
        · exact n62 h
        · exact absurd (List.mem_singleton.1 h) (by decide)
    · obtain ⟨d, ds, rfl⟩ := List.exists_cons_of_ne_nil hds
      simp only [List.cons_append, List.head?_cons]
      intro e
      exact n93 (Option.some.inj e ▸ List.mem_cons_self ..)
  · have hnone : findStr (rust ++ 91 :: []) (T.render ds) = none := by
      cases T with
      | plain q => exact findStr_absent (x := 91) (by simp) q1
      | dim q => exact findStr_bracket b1 hrest q1 fun h => absurd ⟨q, rfl, hsuf h⟩ hT
      | arr q =>
        refine findStr_bracket b1 ?_ (List.not_mem_nil) fun h => absurd (List.suffix_nil.1 h) b0
        intro h
        rcases List.mem_append.1 h with h | h
        · exact q1 h
        · rcases List.mem_cons.1 h with h | h
          · exact absurd h (by decide)
          · exact hrest h
    rw [hnone]
    dsimp only [Option.map_none]
    cases T with
    | dim q => dsimp only; rw [if_neg fun e => hT ⟨q, rfl, e⟩]
    | _ => rfl

/-! ### All rounds -/

namespace Form

def run : List (Str × Str) → Form → Option Form
  | [], S => some S
  | p :: ps, S => if S.fine p then run ps (S.step p) else none

/-- What is done before the rounds. -/
def before (S : Form) : Form :=
  S.map fun s => replaceStr (replaceStr (replaceStr (replaceStr s (b! "string") (b! "String")) (b! "vector") (b! "Vec"))
    (b! "map") (b! "HashMap")) (b! "set") (b! "HashSet")

end Form

theorem Form.rounds {w ds : Str} (hw' : (91 : Byte) ∉ w) (hd : ∀ c ∈ ds, isDigitByte c = true) (hds : ds ≠ []) (k : Nat) :
    ∀ (ps : List (Str × Str)) (S T : Form),
      (∀ p ∈ ps, Word p.1 = true ∧ Word p.2 = true ∧ replaceStr w p.1 p.2 = w) → S.run ps = some T →
      ps.foldlM (fun s p => Verif.rustStep p s) (nest w k (S.render ds)) = Except.ok (ε := Fault) (nest w k (T.render ds)) := by
  intro ps
  induction ps with
  | nil => intro S T _ h; cases h; rfl
  | cons p ps ih =>
    intro S T hp h
    unfold Form.run at h
    split at h
    · next hf =>
      obtain ⟨h1, h2, h3⟩ := hp p (List.mem_cons_self ..)
      rw [List.foldlM_cons, Form.rustStep h1 h2 h3 hw' hd hds hf k]
      exact ih _ _ (fun q hq => hp q (List.mem_cons_of_mem _ hq)) h
    · cases h

theorem clean_quiet {t : Str} (ht : Quiet t) : cleanTypeName t = t := by
  have h : ∀ {pat to : Str}, (∀ c, pat.head? = some c → isDigitByte c = false ∧ c ≠ 93) → replaceStr t pat to = t := by
    intro pat to hp
    refine replaceAll_absent _ _ fun x hx hm => ?_
    obtain ⟨h1, h2⟩ := hp x hx
    rcases ht x hm with h | h
    · rw [h1] at h; cases h
    · exact h2 h
  have hw : replaceWords (b! "int") (b! "int32_t") t.length none t = t := by
    refine replaceWords_absent _ _ _ fun x hx hm => ?_
    cases hx
    rcases ht _ hm with h | h
    · exact absurd h (by decide)
    · exact absurd h (by decide)
  unfold cleanTypeName
  dsimp only
  rw [h (by decide), hw]
  repeat rw [h (by decide)]

attribute [local irreducible] cleanTypeName

theorem Form.clean {ds : Str} (hd : Quiet ds) {S : Form} (hS : cleanTypeName S.name = S.name) (ha : ∀ p, S ≠ .arr p) :
    cleanTypeName (S.render ds) = S.render ds := by
  cases S with
  | plain p => exact hS
  | dim p =>
    show cleanTypeName (p ++ 91 :: (ds ++ [93])) = _
    have hq : Quiet (ds ++ [93]) := by
      intro c hc
      rcases List.mem_append.1 hc with h | h
      · exact hd c h
      · exact Or.inr (List.mem_singleton.1 h)
    have hS : cleanTypeName p = p := hS
    rw [clean_split _ _ (Or.inr (Or.inr rfl)), hS, clean_quiet hq]
    rfl
  | arr p => exact absurd rfl (ha p)

/-- The conversion of nested vectors. -/
theorem Form.rustTypeName {ds : Str} (hd : ∀ c ∈ ds, isDigitByte c = true) (hds : ds ≠ []) {S T : Form}
    (hS : cleanTypeName S.name = S.name) (ha : ∀ p, S ≠ .arr p) (hr : S.before.run rustPairs = some T) (k : Nat) :
    Verif.rustTypeName (nest (b! "vector") k (S.render ds)) =
      .ok (nest (b! "Vec") k ((T.map fun s => replaceStr s (b! "char*") (b! "String")).render ds)) := by
  have hq : Quiet ds := fun c hc => Or.inl (hd c hc)
  unfold Verif.rustTypeName
  dsimp only
  rw [clean_nest, Form.clean hq hS ha, show cleanTypeName (b! "vector") = b! "vector" by decide +kernel,
    replaceStr_nest (by decide) (by decide) (by decide), Form.replace (by decide) hq,
    replaceStr_nest (by decide) (by decide) (by decide), Form.replace (by decide) hq,
    replaceStr_nest (by decide) (by decide) (by decide), Form.replace (by decide) hq,
    replaceStr_nest (by decide) (by decide) (by decide), Form.replace (by decide) hq]
  have e : replaceStr (replaceStr (replaceStr (replaceStr (b! "vector") (b! "string") (b! "String")) (b! "vector") (b! "Vec"))
    (b! "map") (b! "HashMap")) (b! "set") (b! "HashSet") = b! "Vec" := by decide +kernel
  have e2 : ((((S.map fun s => replaceStr s (b! "string") (b! "String")).map fun s => replaceStr s (b! "vector") (b! "Vec")).map
      fun s => replaceStr s (b! "map") (b! "HashMap")).map fun s => replaceStr s (b! "set") (b! "HashSet")) = S.before := by
    cases S <;> rfl
  rw [e, e2, Form.rounds (by decide) hd hds k rustPairs _ T (by decide +kernel) hr]
  show Except.ok _ = _
  rw [replaceStr_nest (by decide) (by decide) (by decide), Form.replace (by decide) hq]
  congr 2

def atomNames : List (Str × Ty) :=
  [(b! "bool", Ty.bool), (b! "int8_t", .i8), (b! "uint8_t", .u8), (b! "int16_t", .i16),
      (b! "uint16_t", .u16), (b! "int32_t", .i32), (b! "uint32_t", .u32), (b! "int64_t", .i64), (b! "uint64_t", .u64),
      (b! "float", .f32), (b! "double", .f64)]

theorem atoms_run : ∀ p ∈ atomNames,
    cleanTypeName p.1 = p.1 ∧
    ((Form.plain p.1).before.run rustPairs).map (Form.map fun s => replaceStr s (b! "char*") (b! "String")) =
      some (Form.plain p.2.rustName) ∧
    ((Form.dim p.1).before.run rustPairs).map (Form.map fun s => replaceStr s (b! "char*") (b! "String")) =
      some (Form.arr p.2.rustName) := by decide +kernel

theorem atom_mem {t : Ty} (h1 : t.isAtom = true) (h2 : t ≠ .string) {c : Str} (hc : c ∈ t.rdClassNames) :
    (c, t) ∈ atomNames := by
  cases t <;> first
    | exact absurd rfl h2
    | (rw [List.mem_singleton.1 hc]; decide)
    | cases h1

theorem strings_run : ∀ s ∈ [b! "string", b! "char*"], cleanTypeName s = s ∧
    ((Form.plain s).before.run rustPairs).map (Form.map fun s => replaceStr s (b! "char*") (b! "String")) =
      some (Form.plain (b! "String")) := by decide +kernel

theorem Form.rust_of {ds : Str} (hd : ∀ c ∈ ds, isDigitByte c = true) (hds : ds ≠ []) {S T : Form}
    (hS : cleanTypeName S.name = S.name) (ha : ∀ p, S ≠ .arr p)
    (hr : (S.before.run rustPairs).map (Form.map fun s => replaceStr s (b! "char*") (b! "String")) = some T) (k : Nat) :
    Verif.rustTypeName (nest (b! "vector") k (S.render ds)) = .ok (nest (b! "Vec") k (T.render ds)) := by
  obtain ⟨U, h1, rfl⟩ := Option.map_eq_some_iff.1 hr
  exact Form.rustTypeName hd hds hS ha h1 k

theorem nest_snoc (w : Str) (k : Nat) (s : Str) : nest w k (w ++ b! "<" ++ s ++ b! ">") = nest w (k + 1) s := by
  induction k with
  | zero => simp [nest]
  | succ k ih =>
    conv => lhs; unfold nest
    rw [ih]
    rfl

/-- The Rust name of a plain type, from any of its C++ names but `TString`. -/
theorem rustName_nest {t : Ty} (ht : t.Plain) {n : Str} (hn : n ∈ t.rdClassNames) (k : Nat)
    (hT : findStr (b! "TString") n = none) : rustTypeName (nest (b! "vector") k n) = .ok (nest (b! "Vec") k t.rustName) := by
  have hd : ∀ c ∈ b! "0", isDigitByte c = true := by decide
  induction t generalizing n k with
  | vec t ih =>
    obtain ⟨c, hc, rfl⟩ := List.mem_map.1 hn
    have e1 := nest_snoc (b! "vector") k c
    have e2 := nest_snoc (b! "Vec") k t.rustName
    have e3 : b! "vector<" ++ c ++ b! ">" = b! "vector" ++ b! "<" ++ c ++ b! ">" := rfl
    have e4 : (Ty.vec t).rustName = b! "Vec" ++ b! "<" ++ t.rustName ++ b! ">" := rfl
    rw [e4, e2, e3, e1]
    refine ih ht hc (k + 1) ?_
    have e5 : b! "vector<" ++ c ++ b! ">" = b! "vector" ++ 60 :: (c ++ 62 :: []) := by simp
    rw [e5, findStr_split (by decide) (by decide), findStr_split (by decide) (by decide)] at hT
    have : findStr (b! "TString") (b! "vector") = none := by decide
    rw [this] at hT
    dsimp only at hT
    cases h : findStr (b! "TString") c with
    | none => rfl
    | some i => rw [h] at hT; cases hT
  | arr m t _ =>
    obtain ⟨c, hc, rfl⟩ := List.mem_map.1 hn
    obtain ⟨h1, h2⟩ := ht
    have e1 : c ++ b! "[" ++ decimal m ++ b! "]" = (Form.dim c).render (decimal m) := by simp [Form.render]
    have e2 : (Ty.arr m t).rustName = (Form.arr t.rustName).render (decimal m) := by simp [Form.render, Ty.rustName]
    rw [e1, e2]
    have := atoms_run (c, t) (atom_mem h1 h2 hc)
    exact Form.rust_of (decimal_digits m) (decimal_ne_nil m) (S := .dim c) this.1 (fun p h => by cases h) this.2.2 k
  | string =>
    simp only [Ty.rdClassNames, List.mem_cons, List.not_mem_nil, or_false] at hn
    have := strings_run n (by
      rcases hn with rfl | rfl | rfl
      · decide
      · decide
      · exact absurd hT (by decide))
    exact Form.rust_of (ds := b! "0") hd (by decide) (S := .plain n) this.1 (fun p h => by cases h) this.2 k
  | _ =>
    have := atoms_run _ (atom_mem rfl (by decide) hn)
    exact Form.rust_of (ds := b! "0") hd (by decide) (S := .plain n) this.1 (fun p h => by cases h) this.2.1 k

end Verif
