import Verif.Spec.CppNames
import Verif.Lemmas.TypeNames
/-
Replacing words in the names of types.
-/
namespace Verif

theorem isPrefixOf_split {pat a b : Str} {c : Byte} (hc : c ∉ pat) :
    pat.isPrefixOf (a ++ c :: b) = pat.isPrefixOf a := by
  induction a generalizing pat with
  | nil =>
    cases pat with
    | nil => rfl
    | cons p pat =>
      have : p ≠ c := fun h => hc (h ▸ List.mem_cons_self ..)
      simp [List.isPrefixOf, this]
  | cons x a ih =>
    cases pat with
    | nil => rfl
    | cons p pat =>
      simp only [List.cons_append, List.isPrefixOf]
      rw [ih fun h => hc (List.mem_cons_of_mem _ h)]

theorem isPrefixOf_length {pat a : Str} (h : pat.isPrefixOf a = true) : pat.length ≤ a.length :=
  (List.isPrefixOf_iff_prefix.1 h).length_le

theorem replaceAll_split {pat to : Str} {c : Byte} (hp : pat ≠ []) (hc : c ∉ pat) (f : Nat) :
    ∀ (f1 f2 : Nat) (a b : Str), (a ++ c :: b).length ≤ f → a.length ≤ f1 → b.length ≤ f2 →
      replaceAll pat to f (a ++ c :: b) = replaceAll pat to f1 a ++ c :: replaceAll pat to f2 b := by
  have hpos : 0 < pat.length := List.length_pos_iff.2 hp
  have fuel : ∀ (n m : Nat) (s : Str), s.length ≤ n → s.length ≤ m → replaceAll pat to n s = replaceAll pat to m s := by
    intro n
    induction n with
    | zero =>
      intro m s h1 h2
      have : s = [] := List.length_eq_zero_iff.1 (Nat.le_zero.1 h1)
      subst this
      cases m <;> rfl
    | succ n ih =>
      intro m s h1 h2
      cases s with
      | nil => cases m <;> rfl
      | cons x s =>
        cases m with
        | zero => simp at h2
        | succ m =>
          simp only [List.length_cons] at h1 h2
          unfold replaceAll
          split
          · congr 1
            exact ih m _ (by simp only [List.length_drop, List.length_cons]; omega)
              (by simp only [List.length_drop, List.length_cons]; omega)
          · congr 1
            exact ih m s (by omega) (by omega)
  induction f with
  | zero => intro f1 f2 a b h; simp at h
  | succ f ih =>
    intro f1 f2 a b h h1 h2
    cases a with
    | nil =>
      have hno : pat.isPrefixOf (c :: b) = false := by
        have := isPrefixOf_split (a := []) (b := b) hc
        rw [List.nil_append] at this
        rw [this]
        cases pat with
        | nil => exact absurd rfl hp
        | cons p pat => rfl
      simp only [List.nil_append]
      conv => lhs; unfold replaceAll
      rw [if_neg (by rw [hno]; simp)]
      have : replaceAll pat to f1 [] = [] := by cases f1 <;> rfl
      rw [this, List.nil_append]
      congr 1
      simp only [List.nil_append, List.length_cons] at h
      exact fuel f f2 b (by omega) h2
    | cons x a =>
      simp only [List.length_cons, List.cons_append] at h h1
      cases f1 with
      | zero => omega
      | succ f1 =>
        simp only [List.cons_append]
        conv => lhs; unfold replaceAll
        conv => rhs; lhs; unfold replaceAll
        rw [show x :: (a ++ c :: b) = (x :: a) ++ c :: b from rfl, isPrefixOf_split hc]
        by_cases hpre : pat ≠ [] ∧ pat.isPrefixOf (x :: a) = true
        · rw [if_pos hpre, if_pos hpre, List.append_assoc]
          congr 1
          rw [List.drop_append_of_le_length (isPrefixOf_length hpre.2)]
          refine ih f1 f2 _ b ?_ ?_ h2
          · simp only [List.length_append, List.length_drop, List.length_cons] at h ⊢
            have := isPrefixOf_length hpre.2
            simp only [List.length_cons] at this
            omega
          · simp only [List.length_drop, List.length_cons]
            omega
        · rw [if_neg hpre, if_neg hpre]
          show x :: _ = x :: (_ ++ _)
          congr 1
          exact ih f1 f2 a b (by omega) (by omega) h2

theorem replaceStr_split {pat to a b : Str} {c : Byte} (hp : pat ≠ []) (hc : c ∉ pat) :
    replaceStr (a ++ c :: b) pat to = replaceStr a pat to ++ c :: replaceStr b pat to :=
  replaceAll_split hp hc _ _ _ _ _ (Nat.le_refl _) (Nat.le_refl _) (Nat.le_refl _)

theorem head?_drop_split {n : Nat} {a b : Str} {c : Byte} (h : n ≤ a.length) (hc : isAlphaByte c = false) :
    ((((a ++ c :: b).drop n).head?).all fun c => !isAlphaByte c) = (((a.drop n).head?).all fun c => !isAlphaByte c) := by
  rw [List.drop_append_of_le_length h]
  cases a.drop n with
  | nil => simp [hc]
  | cons x l => rfl

theorem replaceWords_split {pat to : Str} {c : Byte} (hp : pat ≠ []) (hc : c ∉ pat) (ha : isAlphaByte c = false)
    (f : Nat) : ∀ (f1 f2 : Nat) (p0 : Option Byte) (a b : Str), (a ++ c :: b).length ≤ f → a.length ≤ f1 → b.length ≤ f2 →
      replaceWords pat to f p0 (a ++ c :: b) = replaceWords pat to f1 p0 a ++ c :: replaceWords pat to f2 none b := by
  have hpos : 0 < pat.length := List.length_pos_iff.2 hp
  have fuel : ∀ (n m : Nat) (p q : Option Byte) (s : Str),
      (p.all fun c => !isAlphaByte c) = (q.all fun c => !isAlphaByte c) → s.length ≤ n → s.length ≤ m →
      replaceWords pat to n p s = replaceWords pat to m q s := by
    intro n
    induction n with
    | zero =>
      intro m p q s hpq h1 h2
      have : s = [] := List.length_eq_zero_iff.1 (Nat.le_zero.1 h1)
      subst this
      cases m <;> rfl
    | succ n ih =>
      intro m p q s hpq h1 h2
      cases s with
      | nil => cases m <;> rfl
      | cons x s =>
        cases m with
        | zero => simp at h2
        | succ m =>
          simp only [List.length_cons] at h1 h2
          unfold replaceWords
          dsimp only
          rw [hpq]
          split
          · congr 1
            exact ih m _ _ _ rfl (by simp only [List.length_drop, List.length_cons]; omega)
              (by simp only [List.length_drop, List.length_cons]; omega)
          · congr 1
            exact ih m _ _ s rfl (by omega) (by omega)
  induction f with
  | zero => intro f1 f2 p0 a b h; simp at h
  | succ f ih =>
    intro f1 f2 p0 a b h h1 h2
    cases a with
    | nil =>
      have hno : pat.isPrefixOf (c :: b) = false := by
        have := isPrefixOf_split (a := []) (b := b) hc
        rw [List.nil_append] at this
        rw [this]
        cases pat with
        | nil => exact absurd rfl hp
        | cons p pat => rfl
      simp only [List.nil_append]
      conv => lhs; unfold replaceWords
      rw [if_neg (by rw [hno]; simp)]
      have : replaceWords pat to f1 p0 [] = [] := by cases f1 <;> rfl
      rw [this, List.nil_append]
      congr 1
      simp only [List.nil_append, List.length_cons] at h
      exact fuel f f2 _ _ b (by simp [ha]) (by omega) h2
    | cons x a =>
      simp only [List.length_cons, List.cons_append] at h h1
      cases f1 with
      | zero => omega
      | succ f1 =>
        simp only [List.cons_append]
        conv => lhs; unfold replaceWords
        conv => rhs; lhs; unfold replaceWords
        rw [show x :: (a ++ c :: b) = (x :: a) ++ c :: b from rfl, isPrefixOf_split hc]
        by_cases hpre : pat ≠ [] ∧ pat.isPrefixOf (x :: a) = true
        · have hlen := isPrefixOf_length hpre.2
          rw [if_pos hpre, if_pos hpre]
          dsimp only
          rw [head?_drop_split hlen ha, List.append_assoc]
          congr 1
          rw [List.drop_append_of_le_length hlen]
          refine ih f1 f2 _ _ b ?_ ?_ h2
          · simp only [List.length_append, List.length_drop, List.length_cons] at h ⊢
            simp only [List.length_cons] at hlen
            omega
          · simp only [List.length_drop, List.length_cons]
            omega
        · rw [if_neg hpre, if_neg hpre]
          show x :: _ = x :: (_ ++ _)
          congr 1
          exact ih f1 f2 _ a b (by omega) (by omega) h2

theorem replaceWords_split' {pat to a b : Str} {c : Byte} (hp : pat ≠ []) (hc : c ∉ pat) (ha : isAlphaByte c = false) :
    replaceWords pat to (a ++ c :: b).length none (a ++ c :: b) =
      replaceWords pat to a.length none a ++ c :: replaceWords pat to b.length none b :=
  replaceWords_split hp hc ha _ _ _ _ _ _ (Nat.le_refl _) (Nat.le_refl _) (Nat.le_refl _)

/-- Brackets separate. -/
theorem clean_split (a b : Str) {c : Byte} (hc : c = 60 ∨ c = 62 ∨ c = 91) :
    cleanTypeName (a ++ c :: b) = cleanTypeName a ++ c :: cleanTypeName b := by
  unfold cleanTypeName
  rcases hc with rfl | rfl | rfl
  all_goals
    dsimp only
    rw [replaceStr_split (by decide) (by decide), replaceWords_split' (by decide) (by decide) (by decide)]
    repeat rw [replaceStr_split (by decide) (by decide)]

theorem replaceAll_absent {pat to : Str} (f : Nat) : ∀ s : Str, (∀ x, pat.head? = some x → x ∉ s) → replaceAll pat to f s = s := by
  induction f with
  | zero => intro s _; rfl
  | succ f ih =>
    intro s h
    cases s with
    | nil => rfl
    | cons y s =>
      unfold replaceAll
      rw [if_neg, ih s fun x hx hm => h x hx (List.mem_cons_of_mem _ hm)]
      rintro ⟨h1, h2⟩
      cases pat with
      | nil => exact h1 rfl
      | cons p pat =>
        simp only [List.isPrefixOf, Bool.and_eq_true, beq_iff_eq] at h2
        exact h p rfl (h2.1 ▸ List.mem_cons_self ..)

theorem replaceWords_absent {pat to : Str} (f : Nat) : ∀ (p0 : Option Byte) (s : Str),
    (∀ x, pat.head? = some x → x ∉ s) → replaceWords pat to f p0 s = s := by
  induction f with
  | zero => intro p0 s _; rfl
  | succ f ih =>
    intro p0 s h
    cases s with
    | nil => rfl
    | cons y s =>
      unfold replaceWords
      rw [if_neg, ih _ s fun x hx hm => h x hx (List.mem_cons_of_mem _ hm)]
      rintro ⟨h1, h2⟩
      cases pat with
      | nil => exact h1 rfl
      | cons p pat =>
        simp only [List.isPrefixOf, Bool.and_eq_true, beq_iff_eq] at h2
        exact h p rfl (h2.1 ▸ List.mem_cons_self ..)

theorem replaceStr_spaces (k : Nat) {pat to : Str} (h : pat.head? ≠ some 32) :
    replaceStr (List.replicate k 32) pat to = List.replicate k 32 :=
  replaceAll_absent _ _ fun x hx hm => h (by rw [hx, List.eq_of_mem_replicate hm])

theorem clean_spaces (k : Nat) : cleanTypeName (List.replicate k 32) = [] := by
  unfold cleanTypeName
  dsimp only
  rw [replaceStr_spaces k (by decide), replaceWords_absent _ _ _ fun x hx hm => by
    rw [List.eq_of_mem_replicate hm] at hx; exact absurd hx (by decide)]
  repeat rw [replaceStr_spaces k (by decide)]
  have : ∀ (f n : Nat), n ≤ f → replaceAll (b! " ") [] f (List.replicate n 32) = [] := by
    intro f
    induction f with
    | zero => intro n h; have : n = 0 := by omega
              subst this; rfl
    | succ f ih =>
      intro n h
      cases n with
      | zero => rfl
      | succ n =>
        rw [List.replicate_succ]
        unfold replaceAll
        rw [if_pos (by simp [List.isPrefixOf])]
        exact ih n (by omega)
  unfold replaceStr
  exact this _ k (by simp)

theorem clean_container (w x : Str) (k : Nat) (hw : cleanTypeName w = w) :
    cleanTypeName (w ++ b! "<" ++ x ++ b! ">" ++ List.replicate k 32) = w ++ b! "<" ++ cleanTypeName x ++ b! ">" := by
  have : w ++ b! "<" ++ x ++ b! ">" ++ List.replicate k 32 = w ++ 60 :: (x ++ 62 :: List.replicate k 32) := by simp
  rw [this, clean_split _ _ (Or.inl rfl), clean_split _ _ (Or.inr (Or.inl rfl)), clean_spaces, hw]
  simp

/-- The name of a nested vector. -/
theorem clean_spelled {s : Str} {t : Ty} (h : cleanTypeName s ∈ t.rdClassNames) (ks : List Nat) :
    cleanTypeName (spelled ks s) ∈ (nestedVec ks.length t).rdClassNames := by
  induction ks with
  | nil => exact h
  | cons k ks ih =>
    have := clean_container (b! "vector") (spelled ks s) k (by decide +kernel)
    have e : spelled (k :: ks) s = b! "vector" ++ b! "<" ++ spelled ks s ++ b! ">" ++ List.replicate k 32 := rfl
    rw [e, this]
    show _ ∈ (nestedVec ks.length t).rdClassNames.map _
    exact List.mem_map.2 ⟨_, ih, rfl⟩

theorem spellings_clean : ∀ p ∈ cppSpellings, cleanTypeName p.1 ∈ p.2.rdClassNames ∧
    p.2.rdClassNames.head? = some (cleanTypeName p.1) := by decide +kernel

end Verif
