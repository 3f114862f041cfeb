import Verif.Spec.Dump
import Verif.Lemmas.BranchRead
import Verif.Lemmas.MadeStorable
import Verif.Lemmas.Containers
/-
Lemmas about the programs `oxyroot-ls` and `oxyroot-dump`.
-/
namespace Verif

/-! ### The listing -/

theorem truncate_short {s : Str} {n : Nat} (h : s.length ≤ n) : truncateStr n s = .ok s := by
  unfold truncateStr
  rw [List.getElem?_eq_none h]

theorem rdClassNames_shown {t : Ty} (ht : t.isSupported = true) {n : Str} (hn : n ∈ t.rdClassNames)
    (hs : t = .string → n = b! "char*") : n = t.shownType := by
  have key : ∀ {e : Ty} {x : Str}, e.isNumber = true ∨ e = .bool → x ∈ e.rdClassNames → x = e.shownType := by
    intro e x he hx
    cases e <;> first
      | exact List.mem_singleton.1 hx
      | (rcases he with he | he <;> cases he)
  cases t with
  | vec e =>
    obtain ⟨x, hx, rfl⟩ := List.mem_map.1 hn
    rw [key (.inl ht) hx]; rfl
  | arr k e =>
    obtain ⟨x, hx, rfl⟩ := List.mem_map.1 hn
    simp only [Ty.isSupported, Bool.and_eq_true, Bool.or_eq_true, decide_eq_true_eq] at ht
    rw [key ht.2 hx]; rfl
  | string => exact hs rfl
  | _ => exact List.mem_singleton.1 hn

theorem shownType_length {t : Ty} (ht : t.isSupported = true) : t.shownType.length ≤ 30 := by
  have key : ∀ {e : Ty}, e.isNumber = true ∨ e = .bool → e.shownType.length ≤ 8 := by
    intro e he
    cases e <;> first
      | decide
      | (rcases he with he | he <;> cases he)
  cases t with
  | vec e =>
    have := key (e := e) (.inl ht)
    simp only [Ty.shownType, List.length_append]
    have : (b! "vector<").length = 7 ∧ (b! ">").length = 1 := by decide
    omega
  | arr k e =>
    simp only [Ty.isSupported, Bool.and_eq_true, Bool.or_eq_true, decide_eq_true_eq] at ht
    have h1 := key (e := e) ht.2
    have h2 : (decimal k).length ≤ 9 + 1 := decimal_length (by omega)
    simp only [Ty.shownType, List.length_append]
    have : (b! "[").length = 1 ∧ (b! "]").length = 1 := by decide
    omega
  | _ => decide

/-! ### The type -/

theorem lookup_head {α} {l : List (Str × α)} {c : Byte} {s : Str} (h : l.all (fun p => p.1.head? != some c) = true) :
    l.lookup (c :: s) = none := by
  induction l with
  | nil => rfl
  | cons p l ih =>
    rw [List.all_cons, Bool.and_eq_true] at h
    obtain ⟨k, v⟩ := p
    have : (c :: s == k) = false := by
      rw [beq_eq_false_iff_ne]
      rintro rfl
      exact absurd h.1 (by simp)
    rw [List.lookup_cons, this]
    exact ih h.2

theorem takeWhile_upto {α} {p : α → Bool} {a : List α} {x : α} {b : List α} (h : ∀ y ∈ a, p y = true) (hx : p x = false) :
    (a ++ x :: b).takeWhile p = a ∧ (a ++ x :: b).dropWhile p = x :: b := by
  induction a with
  | nil => simp [hx]
  | cons y a ih =>
    have := ih fun z hz => h z (List.mem_cons_of_mem _ hz)
    simp [h y (List.mem_cons_self ..), this]

theorem findArray_array {item : Str} {n : Nat} (h : ∀ c ∈ item, (isAlphaByte c || isDigitByte c) = true) (hne : item ≠ []) :
    findArray (b! "[" ++ item ++ b! ";" ++ decimal n ++ b! "]") = some (item, decimal n) := by
  have e : b! "[" ++ item ++ b! ";" ++ decimal n ++ b! "]" = 91 :: (item ++ 59 :: (decimal n ++ 93 :: [])) := by
    simp
  rw [e]
  obtain ⟨h1, h2⟩ := takeWhile_upto (p := fun c => isAlphaByte c || isDigitByte c) (x := 59)
    (b := decimal n ++ 93 :: []) h (by decide)
  obtain ⟨h3, h4⟩ := takeWhile_upto (p := isDigitByte) (x := 93) (b := []) (decimal_digits n) (by decide)
  unfold findArray
  rw [if_pos rfl]
  dsimp only
  rw [h1, h2, List.drop_one, List.tail_cons, h3, h4, if_pos ⟨hne, rfl, decimal_ne_nil n, rfl⟩]

theorem dumpType_array {n : Nat} {e : Ty} (hn : n < 2 ^ 31) (he : e.isNumber = true ∨ e = .bool) :
    dumpType (Ty.arr n e).rustName = .ok (some (.sized n e)) := by
  have h1 : (∀ c ∈ e.rustName, (isAlphaByte c || isDigitByte c) = true) ∧ e.rustName ≠ [] ∧
      dumpItems.lookup e.rustName = some e := by
    cases e <;> first
      | exact ⟨by decide, by decide, by decide⟩
      | (rcases he with he | he <;> cases he)
  unfold dumpType
  have h0 : dumpTable.lookup (Ty.arr n e).rustName = none :=
    lookup_head (c := 91) (s := e.rustName ++ b! ";" ++ decimal n ++ b! "]") (by decide +kernel)
  rw [h0, show findArray (Ty.arr n e).rustName = _ from findArray_array h1.1 h1.2.1]
  dsimp only
  have h2 : parseDigits (decimal n) = .ok n := by
    unfold parseDigits
    rw [digitsVal_decimal, if_pos (by omega)]
  rw [Res.bind_ok h2, h1.2.2]
  rfl

/-- The type a column is printed as. -/
def Ty.dumpedAs : Ty → DumpTy
  | .arr n e => .sized n e
  | t => .of t

theorem dumpType_of_lookup {s : Str} {t : DumpTy} (h : dumpTable.lookup s = some t) : dumpType s = .ok (some t) := by
  unfold dumpType
  rw [h]

theorem dumpType_supported {t : Ty} (ht : t.isSupported = true) :
    dumpType t.rustName = .ok (if t.isDumped then some t.dumpedAs else none) := by
  cases t with
  | vec e => cases e <;> first
    | cases ht; done
    | exact dumpType_of_lookup (by decide +kernel)
    | (unfold dumpType
       rw [show dumpTable.lookup _ = none by decide +kernel, show findArray _ = none by decide]
       rfl)
  | arr n e =>
    simp only [Ty.isSupported, Bool.and_eq_true, Bool.or_eq_true, decide_eq_true_eq] at ht
    exact dumpType_array ht.1.2 ht.2
  | _ => exact dumpType_of_lookup (by decide +kernel)

/-! ### The values -/

theorem times_mono {α} {m m' : Rd α} (h : ∀ r x, m r = .ok x → m' r = .ok x) :
    ∀ {n r x}, Rd.times n m r = .ok x → Rd.times n m' r = .ok x := by
  intro n
  induction n with
  | zero => intro r x hx; exact hx
  | succ n ih =>
    rintro r ⟨x, r'⟩ hx
    unfold Rd.times at hx ⊢
    obtain ⟨a, r1, h1, h2⟩ := Rd.bind_eq_ok hx
    obtain ⟨as, r2, h3, h4⟩ := Rd.bind_eq_ok h2
    rw [Rd.bind_ok (h _ _ h1), Rd.bind_ok (ih h3)]
    exact h4

theorem readWith_mono {α} {m m' : Rd α} (h : ∀ r x, m r = .ok x → m' r = .ok x) {buf : List Byte} {x : α}
    (hx : readWith m buf = .ok x) : readWith m' buf = .ok x := by
  unfold readWith at hx ⊢
  split at hx
  · next h1 => rw [h _ _ h1]; exact hx
  · cases hx

theorem unwrap_ok {α} {a : Res α} {x : α} : a.unwrap = .ok x ↔ a = .ok x := by
  cases a with
  | error e => exact ⟨(fun h => nomatch h), (fun h => nomatch h)⟩
  | ok => exact Iff.rfl

theorem collect_mono {ι α} {g g' : ι → Res α} (h : ∀ i x, g i = .ok x → g' i = .ok x) :
    ∀ {l : List ι} {xs}, collect (l.map g) = .ok xs → collect (l.map g') = .ok xs := by
  intro l
  induction l with
  | nil => intro xs hx; exact hx
  | cons i l ih =>
    intro xs hx
    simp only [List.map_cons, collect] at hx ⊢
    cases e1 : g i with
    | error => rw [e1] at hx; cases hx
    | ok a =>
      cases e2 : collect (l.map g) with
      | error => rw [e1, e2] at hx; cases hx
      | ok as =>
        rw [e1, e2] at hx
        rw [h i a e1, ih e2]
        exact hx

theorem Chunk.items_mono {α} {m m' : Rd α} (h : ∀ r x, m r = .ok x → m' r = .ok x) (c : Chunk) {xs : List α}
    (hx : c.items m = .ok xs) : c.items m' = .ok xs := by
  cases c with
  | regular n s buf =>
    simp only [Chunk.items] at hx ⊢
    by_cases hn : n < 0
    · rw [if_pos hn] at hx; cases hx
    · rw [if_neg hn] at hx ⊢
      exact unwrap_ok.2 (readWith_mono (fun r x => times_mono h) (unwrap_ok.1 hx))
  | irregular n data header =>
    simp only [Chunk.items] at hx ⊢
    refine collect_mono (fun buf x hb => ?_) hx
    refine unwrap_ok.2 (readWith_mono (fun r y hr => ?_) (unwrap_ok.1 hb))
    obtain ⟨y, r'⟩ := y
    obtain ⟨a, r1, h1, h2⟩ := Rd.bind_eq_ok hr
    rw [Rd.bind_ok h1]
    exact h _ _ h2

theorem getBasket_mono {α} {m m' : Rd α} (h : ∀ r x, m r = .ok x → m' r = .ok x) {b : Branch} (hb : b.branches = [])
    {r : Reader} {xs : List α} (hx : b.getBasket r m = .ok xs) : b.getBasket r m' = .ok xs := by
  unfold Branch.getBasket at hx ⊢
  rw [hb] at hx ⊢
  dsimp only at hx ⊢
  cases e1 : b.chunks r with
  | error => rw [e1] at hx; cases hx
  | ok cs =>
    rw [e1] at hx
    show (collect _ >>= _) = _
    have hx' : (collect _ >>= _) = _ := hx
    cases e2 : collect (cs.map fun c => do let c ← c; c.items m) with
    | error => rw [e2] at hx'; cases hx'
    | ok vs =>
      rw [e2] at hx'
      rw [collect_mono (g' := fun c => do let c ← c; c.items m') (fun c x hc => ?_) e2]
      · exact hx'
      · cases c with
        | error => cases hc
        | ok c => exact c.items_mono h hc

theorem getBasket_sized {n : Nat} {t : Ty} {b : Branch} (hb : b.branches = []) {r : Reader} {xs : List (List t.Val)}
    (hx : b.getBasket r (Ty.arr n t).unmarshal = .ok xs) :
    b.getBasket r (DumpTy.sized n t).unmarshal = .ok xs := by
  refine getBasket_mono (m := Rd.times n t.unmarshal) (fun r x h => ?_) hb hx
  refine times_mono (fun r x h => ?_) h
  rw [h]

theorem branchesR_flat : ∀ {bs : List Branch}, (∀ b ∈ bs, b.branches = []) → branchesR bs = bs := by
  intro bs
  induction bs with
  | nil => intro _; rfl
  | cons b bs ih =>
    intro h
    have h1 : b.branchesR = [] := by
      have := h b (List.mem_cons_self ..)
      cases b with
      | mk d e ss =>
        have : ss = [] := this
        subst this
        rfl
    unfold branchesR
    rw [h1, ih fun x hx => h x (List.mem_cons_of_mem _ hx)]
    rfl

end Verif
