import Verif.Spec.CommandLine
import Verif.Model.App
import Verif.Model.Utf8
import Verif.Model.TrackerSession

/-!
# C76: the command line
-/

namespace Demag.Props

open Demag Spec

/-! ### Reading options -/

/-- What the declarations of options have to fulfil. -/
def GoodDecl (decl : List CliOption) : Prop :=
  (∀ o ∈ decl, o.long ≠ [] ∧ '=' ∉ o.long ∧ o.short ≠ some '-') ∧
  (∀ o ∈ decl, ∀ o' ∈ decl, o.long = o'.long → o = o') ∧
  (∀ o ∈ decl, ∀ o' ∈ decl, o.short ≠ none → o.short = o'.short → o = o')

instance (decl : List CliOption) : Decidable (GoodDecl decl) := by unfold GoodDecl; infer_instance

theorem isPlainArg_iff (a : Text) : isPlainArg a = true ↔ PlainArg a := by
  unfold isPlainArg PlainArg
  cases a with
  | nil => simp
  | cons c t => simp

theorem find_long {decl : List CliOption} (h : GoodDecl decl) {n : Text} {s : Option Char} {b : Bool} (hm : (⟨n, s, b⟩ : CliOption) ∈ decl) :
    (decl.find? fun o => o.long == n) = some ⟨n, s, b⟩ := by
  cases e : decl.find? fun o => o.long == n with
  | none => exact absurd (List.find?_eq_none.1 e _ hm) (by simp)
  | some o =>
    have h1 := List.find?_some e
    have h2 := List.mem_of_find?_eq_some e
    rw [h.2.1 o h2 _ hm (by simpa using h1)]

theorem find_short {decl : List CliOption} (h : GoodDecl decl) {n : Text} {c : Char} {b : Bool} (hm : (⟨n, some c, b⟩ : CliOption) ∈ decl) :
    (decl.find? fun o => o.short == some c) = some ⟨n, some c, b⟩ := by
  cases e : decl.find? fun o => o.short == some c with
  | none => exact absurd (List.find?_eq_none.1 e _ hm) (by simp)
  | some o =>
    have h1 := List.find?_some e
    have h2 := List.mem_of_find?_eq_some e
    have h3 : o.short = some c := by simpa using h1
    rw [h.2.2 o h2 _ hm (by rw [h3]; simp) h3]

theorem splitEquals_none {t : Text} (h : '=' ∉ t) : splitEquals t = (t, none) := by
  have : t.dropWhile (· != '=') = [] := by
    have hp : ∀ c ∈ t, (c != '=') = true := by
      intro c hc
      have : c ≠ '=' := fun e => h (e ▸ hc)
      simpa using this
    have := List.dropWhile_append_of_pos (l₂ := []) hp
    rwa [List.append_nil, List.dropWhile_nil] at this
  simp [splitEquals, this]

theorem splitEquals_some {t : Text} (h : '=' ∉ t) (v : Text) : splitEquals (t ++ '=' :: v) = (t, some v) := by
  have hp : ∀ c ∈ t, (c != '=') = true := by
    intro c hc
    have : c ≠ '=' := fun e => h (e ▸ hc)
    simpa using this
  have h1 : (t ++ '=' :: v).dropWhile (· != '=') = '=' :: v := by
    rw [List.dropWhile_append_of_pos hp]; simp
  have h2 : (t ++ '=' :: v).takeWhile (· != '=') = t := by
    rw [List.takeWhile_append_of_pos hp]; simp
  simp [splitEquals, h1, h2]

theorem splitEquals_shape (t : Text) : ((splitEquals t).2 = none ∧ (splitEquals t).1 = t) ∨
    ∃ v, (splitEquals t).2 = some v ∧ t = (splitEquals t).1 ++ '=' :: v := by
  unfold splitEquals
  split
  · exact .inl ⟨rfl, rfl⟩
  · rename_i c v e
    refine .inr ⟨v, rfl, ?_⟩
    have h1 := List.takeWhile_append_dropWhile (p := (· != '=')) (l := t)
    have h2 : c = '=' := by
      have := List.head?_dropWhile_not (p := (· != '=')) (l := t)
      rw [e] at this
      simpa using this
    rw [e, h2] at h1
    exact h1.symm

theorem scanShort_flags {decl : List CliOption} (h : GoodDecl decl) {cs : List Char} {names : List Text} (hf : FlagLetters decl cs names)
    (t : Text) : scanShort decl (cs ++ t) = (scanShort decl t).map fun r => (names.map .flag ++ r.1, r.2) := by
  induction hf with
  | nil => cases e : scanShort decl t <;> simp [e]
  | @cons c n cs names hc _ ih =>
    rw [List.cons_append, scanShort, find_short h hc]
    simp only [Bool.false_eq_true, if_false]
    rw [ih]
    cases e : scanShort decl t <;> simp

theorem scanShort_shape {decl : List CliOption} {t : Text} {is : List CliItem} {p : Option Text} (h : scanShort decl t = some (is, p)) :
    ∃ cs names, FlagLetters decl cs names ∧
      ((t = cs ∧ is = names.map .flag ∧ p = none) ∨
       (∃ c n, (⟨n, some c, true⟩ : CliOption) ∈ decl ∧
         ((t = cs ++ [c] ∧ is = names.map .flag ∧ p = some n) ∨
          (∃ v, t = cs ++ c :: '=' :: v ∧ is = names.map .flag ++ [.opt n v] ∧ p = none) ∨
          (∃ d v, d ≠ '=' ∧ t = cs ++ c :: d :: v ∧ is = names.map .flag ++ [.opt n (d :: v)] ∧ p = none)))) := by
  induction t generalizing is p with
  | nil =>
    rw [scanShort] at h; cases h
    exact ⟨[], [], .nil, .inl ⟨rfl, rfl, rfl⟩⟩
  | cons c t ih =>
    rw [scanShort] at h
    cases e : decl.find? fun o => o.short == some c with
    | none => rw [e] at h; cases h
    | some o =>
      rw [e] at h
      have h1 : o.short = some c := by simpa using List.find?_some e
      have h2 := List.mem_of_find?_eq_some e
      obtain ⟨n, s, b⟩ := o
      simp only at h1; subst h1
      cases b with
      | false =>
        simp only [Bool.false_eq_true, if_false] at h
        cases e2 : scanShort decl t with
        | none => rw [e2] at h; cases h
        | some r =>
          obtain ⟨is', p'⟩ := r
          rw [e2] at h
          simp only [Option.map_some, Option.some.injEq, Prod.mk.injEq] at h
          obtain ⟨rfl, rfl⟩ := h
          obtain ⟨cs, names, hf, hc⟩ := ih e2
          refine ⟨c :: cs, n :: names, .cons h2 hf, ?_⟩
          rcases hc with ⟨rfl, rfl, rfl⟩ | ⟨c', n', hd, hc⟩
          · exact .inl ⟨rfl, rfl, rfl⟩
          · refine .inr ⟨c', n', hd, ?_⟩
            rcases hc with ⟨rfl, rfl, rfl⟩ | ⟨v, rfl, rfl, rfl⟩ | ⟨d, v, hne, rfl, rfl, rfl⟩
            · exact .inl ⟨rfl, rfl, rfl⟩
            · exact .inr (.inl ⟨v, rfl, rfl, rfl⟩)
            · exact .inr (.inr ⟨d, v, hne, rfl, rfl, rfl⟩)
      | true =>
        simp only [if_true] at h
        refine ⟨[], [], .nil, .inr ⟨c, n, h2, ?_⟩⟩
        cases t with
        | nil => cases h; exact .inl ⟨rfl, rfl, rfl⟩
        | cons d v =>
          simp only at h
          by_cases hd : d = '='
          · subst hd
            simp only [beq_self_eq_true, if_true] at h
            cases h
            exact .inr (.inl ⟨v, rfl, rfl, rfl⟩)
          · have hb : (d == '=') = false := by simpa using hd
            simp only [hb, Bool.false_eq_true, if_false] at h
            cases h
            exact .inr (.inr ⟨d, v, hd, rfl, rfl, rfl⟩)

theorem prepend_nil (r : Option (List CliItem × List Text)) : prependItems [] r = r := by
  cases r <;> simp [prependItems]

theorem prepend_append (a b : List CliItem) (r : Option (List CliItem × List Text)) : prependItems a (prependItems b r) = prependItems (a ++ b) r := by
  cases r <;> simp [prependItems]

theorem scan_pending (decl : List CliOption) (words : Bool) (n v : Text) (as : List Text) (h : PlainArg v) :
    scanArgs decl words (some n) (v :: as) = prependItems [.opt n v] (scanArgs decl words none as) := by
  rw [scanArgs, if_pos ((isPlainArg_iff v).2 h)]

theorem argShape_long {body : Text} (hb : body ≠ []) : argShape ('-' :: '-' :: body) = .long body := by
  cases body with
  | nil => exact absurd rfl hb
  | cons c t => rfl

theorem argShape_letters {c : Char} {t : Text} (hc : c ≠ '-') : argShape ('-' :: c :: t) = .letters (c :: t) := by
  unfold argShape
  split
  · rename_i e; cases e; exact absurd rfl hc
  · rename_i e; cases e; exact absurd rfl hc
  · rename_i e; cases e; rfl
  · rename_i h1 h2 h3; exact absurd rfl (h3 c t)

theorem argShape_word {w : Text} (h : PlainArg w) : argShape w = .word := by
  have hn : ∀ c t, w ≠ '-' :: c :: t := by
    rintro c t rfl
    rcases h with h | h
    · cases h
    · exact h _ rfl
  unfold argShape
  split
  · exact absurd rfl (hn _ _)
  · exact absurd rfl (hn _ _)
  · exact absurd rfl (hn _ _)
  · rfl

theorem scan_long {decl : List CliOption} {words : Bool} {body : Text} (hb : body ≠ []) (rest : List Text) :
    scanArgs decl words none (('-' :: '-' :: body) :: rest) =
      (scanLong decl body).bind fun r => prependItems r.1 (scanArgs decl words r.2 rest) := by
  rw [scanArgs, argShape_long hb]

theorem scan_letters {decl : List CliOption} {words : Bool} {t : Text} (ht : t ≠ []) (hh : t.head? ≠ some '-') (rest : List Text) :
    scanArgs decl words none (('-' :: t) :: rest) = (scanShort decl t).bind fun r => prependItems r.1 (scanArgs decl words r.2 rest) := by
  cases t with
  | nil => exact absurd rfl ht
  | cons c t => rw [scanArgs, argShape_letters (by simpa using hh)]

theorem scan_word {decl : List CliOption} {words : Bool} {w : Text} (h : PlainArg w) (rest : List Text) :
    scanArgs decl words none (w :: rest) =
      if words then prependItems [.word w] (scanArgs decl words none rest) else some ([], w :: rest) := by
  rw [scanArgs, argShape_word h]

theorem scanLong_flag {decl : List CliOption} (h : GoodDecl decl) {n : Text} {s : Option Char} (hm : (⟨n, s, false⟩ : CliOption) ∈ decl) :
    scanLong decl n = some ([.flag n], none) := by
  rw [scanLong, splitEquals_none (h.1 _ hm).2.1, find_long h hm]

theorem scanLong_next {decl : List CliOption} (h : GoodDecl decl) {n : Text} {s : Option Char} (hm : (⟨n, s, true⟩ : CliOption) ∈ decl) :
    scanLong decl n = some ([], some n) := by
  rw [scanLong, splitEquals_none (h.1 _ hm).2.1, find_long h hm]

theorem scanLong_equals {decl : List CliOption} (h : GoodDecl decl) {n : Text} {s : Option Char} (hm : (⟨n, s, true⟩ : CliOption) ∈ decl) (v : Text) :
    scanLong decl (n ++ '=' :: v) = some ([.opt n v], none) := by
  rw [scanLong, splitEquals_some (h.1 _ hm).2.1, find_long h hm]

theorem scanLong_shape {decl : List CliOption} {t : Text} {is : List CliItem} {p : Option Text} (h : scanLong decl t = some (is, p)) :
    (∃ s, (⟨t, s, false⟩ : CliOption) ∈ decl ∧ is = [.flag t] ∧ p = none) ∨
    (∃ s, (⟨t, s, true⟩ : CliOption) ∈ decl ∧ is = [] ∧ p = some t) ∨
    ∃ n s v, (⟨n, s, true⟩ : CliOption) ∈ decl ∧ t = n ++ '=' :: v ∧ is = [.opt n v] ∧ p = none := by
  unfold scanLong at h
  cases hf : decl.find? fun o => o.long == (splitEquals t).1 with
  | none => rw [hf] at h; cases h
  | some o =>
    rw [hf] at h
    have h1 : o.long = (splitEquals t).1 := by simpa using List.find?_some hf
    have h2 := List.mem_of_find?_eq_some hf
    obtain ⟨n, s, b⟩ := o
    simp only at h1 h
    rcases splitEquals_shape t with ⟨e1, e2⟩ | ⟨v, e1, e2⟩
    · rw [e2] at h1; subst h1
      rw [e1] at h
      cases b with
      | false => cases h; exact .inl ⟨s, h2, rfl, rfl⟩
      | true => cases h; exact .inr (.inl ⟨s, h2, rfl, rfl⟩)
    · rw [e1] at h
      cases b with
      | false => cases h
      | true => cases h; exact .inr (.inr ⟨n, s, v, h2, by rw [h1]; exact e2, rfl, rfl⟩)

theorem letters_head {decl : List CliOption} (h : GoodDecl decl) {cs : List Char} {names : List Text} (hf : FlagLetters decl cs names)
    {c : Char} {n : Text} {b : Bool} (hm : (⟨n, some c, b⟩ : CliOption) ∈ decl) (t : Text) : (cs ++ c :: t).head? ≠ some '-' := by
  cases hf with
  | nil =>
    have := (h.1 _ hm).2.2
    simpa using this
  | cons hc _ =>
    have := (h.1 _ hc).2.2
    simpa using this

/-- Whatever is spelled by the rules is read as it was meant. -/
theorem spelled_scans {decl : List CliOption} (h : GoodDecl decl) {words : Bool} {is : List CliItem} {as : List Text}
    (hs : Spelled decl words is as) (tail : List Text) (ht : words = true → tail = []) :
    scanArgs decl words none (as ++ tail) = prependItems is (scanArgs decl words none tail) := by
  induction hs with
  | nil => rw [prepend_nil]; rfl
  | @longFlag n s is as hm _ ih =>
    rw [List.cons_append, scan_long (h.1 _ hm).1, scanLong_flag h hm, Option.bind_some, ih, prepend_append]; rfl
  | @longEquals n s v is as hm _ ih =>
    rw [List.cons_append, show ('-' :: '-' :: n ++ '=' :: v : Text) = '-' :: '-' :: (n ++ '=' :: v) from rfl, scan_long (by simp),
      scanLong_equals h hm, Option.bind_some, ih, prepend_append]; rfl
  | @longNext n s v is as hm hv _ ih =>
    rw [List.cons_append, scan_long (h.1 _ hm).1, scanLong_next h hm, Option.bind_some, List.cons_append, scan_pending _ _ _ _ _ hv, ih,
      prepend_append, prepend_append]; rfl
  | @letters cs names is as hne hf _ ih =>
    have hh : cs.head? ≠ some '-' := by
      cases hf with
      | nil => exact absurd rfl hne
      | cons hc _ => have := (h.1 _ hc).2.2; simpa using this
    have hsc := scanShort_flags h hf []
    rw [List.append_nil] at hsc
    rw [List.cons_append, scan_letters hne hh, hsc, scanShort, Option.map_some, Option.bind_some, ih, prepend_append]
    simp
  | @letterAttached cs names c n d v is as hf hm hd _ ih =>
    have hsc := scanShort_flags h hf (c :: d :: v)
    have hb : (d == '=') = false := by simpa using hd
    have hs2 : scanShort decl (c :: d :: v) = some ([.opt n (d :: v)], none) := by
      rw [scanShort, find_short h hm]; simp [hb]
    rw [hs2] at hsc
    rw [List.cons_append, show ('-' :: cs ++ c :: d :: v : Text) = '-' :: (cs ++ c :: d :: v) from rfl,
      scan_letters (by simp) (letters_head h hf hm _), hsc, Option.map_some, Option.bind_some, ih, prepend_append]
    simp
  | @letterEquals cs names c n v is as hf hm _ ih =>
    have hsc := scanShort_flags h hf (c :: '=' :: v)
    have hs2 : scanShort decl (c :: '=' :: v) = some ([.opt n v], none) := by
      rw [scanShort, find_short h hm]; simp
    rw [hs2] at hsc
    rw [List.cons_append, show ('-' :: cs ++ c :: '=' :: v : Text) = '-' :: (cs ++ c :: '=' :: v) from rfl,
      scan_letters (by simp) (letters_head h hf hm _), hsc, Option.map_some, Option.bind_some, ih, prepend_append]
    simp
  | @letterNext cs names c n v is as hf hm hv _ ih =>
    have hsc := scanShort_flags h hf [c]
    have hs2 : scanShort decl [c] = some ([], some n) := by
      rw [scanShort, find_short h hm]; simp
    rw [hs2] at hsc
    rw [List.cons_append, show ('-' :: cs ++ [c] : Text) = '-' :: (cs ++ [c]) from rfl,
      scan_letters (by simp) (letters_head h hf hm _), hsc, Option.map_some, Option.bind_some, List.cons_append, scan_pending _ _ _ _ _ hv, ih, prepend_append, prepend_append]
    simp
  | @word w is as hw hp _ ih =>
    rw [List.cons_append, scan_word hp, if_pos hw, ih, prepend_append]; rfl
  | @rest ws hw =>
    rw [ht hw, List.append_nil, scanArgs, scanArgs]
    simp [prependItems, argShape, hw]

theorem prepend_some {is : List CliItem} {r : Option (List CliItem × List Text)} {x : List CliItem × List Text} (h : prependItems is r = some x) :
    ∃ y, r = some (y, x.2) ∧ x.1 = is ++ y := by
  cases r with
  | none => cases h
  | some r => obtain ⟨y, z⟩ := r; cases h; exact ⟨y, rfl, rfl⟩

theorem pending_some {decl : List CliOption} {words : Bool} {n : Text} {as : List Text} {x : List CliItem × List Text}
    (h : scanArgs decl words (some n) as = some x) :
    ∃ v as' y, as = v :: as' ∧ PlainArg v ∧ x.1 = .opt n v :: y ∧ scanArgs decl words none as' = some (y, x.2) := by
  cases as with
  | nil => rw [scanArgs] at h; cases h
  | cons v as =>
    rw [scanArgs] at h
    split at h
    · rename_i hp
      obtain ⟨y, h1, h2⟩ := prepend_some h
      exact ⟨v, as, y, rfl, (isPlainArg_iff v).1 hp, h2, h1⟩
    · cases h

/-- Whatever is read was spelled by the rules. -/
theorem scans_spelled {decl : List CliOption} (h : GoodDecl decl) {words : Bool} (k : Nat) (as : List Text) (hk : as.length ≤ k) {is : List CliItem}
    {rest : List Text} (hs : scanArgs decl words none as = some (is, rest)) :
    ∃ front, as = front ++ rest ∧ Spelled decl words is front ∧ (words = true → rest = []) ∧ ∀ a, rest.head? = some a → PlainArg a := by
  induction k generalizing as is rest with
  | zero =>
    have : as = [] := List.length_eq_zero_iff.1 (by omega)
    subst this
    rw [scanArgs] at hs; cases hs
    exact ⟨[], rfl, .nil, fun _ => rfl, by simp⟩
  | succ k ih =>
    cases as with
    | nil =>
      rw [scanArgs] at hs; cases hs
      exact ⟨[], rfl, .nil, fun _ => rfl, by simp⟩
    | cons a as =>
      simp only [List.length_cons] at hk
      by_cases hdd : a = ['-', '-']
      · subst hdd
        rw [scanArgs] at hs
        simp only [argShape] at hs
        split at hs
        · rename_i hw
          cases hs
          exact ⟨['-', '-'] :: as, by simp, .rest hw, fun _ => rfl, by simp⟩
        · cases hs
      · by_cases hp : PlainArg a
        · rw [scan_word hp] at hs
          split at hs
          · rename_i hw
            obtain ⟨y, h1, h2⟩ := prepend_some hs
            obtain ⟨front, rfl, h4, h5, h6⟩ := ih as (by omega) h1
            simp only at h2; subst h2
            exact ⟨a :: front, rfl, .word hw hp h4, h5, h6⟩
          · rename_i hw
            cases hs
            exact ⟨[], rfl, .nil, fun h => absurd h hw, by simpa using hp⟩
        · have : ∃ c t, a = '-' :: c :: t := by
            unfold PlainArg at hp
            cases a with
            | nil => exact absurd (.inr (by simp)) hp
            | cons x t =>
              have hx : x = '-' := by
                apply Classical.byContradiction
                intro hx
                exact hp (.inr (by intro t' e; cases e; exact hx rfl))
              subst hx
              cases t with
              | nil => exact absurd (.inl rfl) hp
              | cons c t => exact ⟨c, t, rfl⟩
          obtain ⟨c, t, rfl⟩ := this
          by_cases hc : c = '-'
          · subst hc
            have ht : t ≠ [] := by rintro rfl; exact hdd rfl
            rw [scan_long ht] at hs
            cases hl : scanLong decl t with
            | none => rw [hl] at hs; cases hs
            | some r =>
              obtain ⟨is', p⟩ := r
              rw [hl, Option.bind_some] at hs
              obtain ⟨y, h1, h2⟩ := prepend_some hs
              simp only at h1 h2; subst h2
              rcases scanLong_shape hl with ⟨s, hm, rfl, rfl⟩ | ⟨s, hm, rfl, rfl⟩ | ⟨n, s, v, hm, rfl, rfl, rfl⟩
              · obtain ⟨front, rfl, h5, h6, h7⟩ := ih as (by omega) h1
                exact ⟨_ :: front, rfl, .longFlag hm h5, h6, h7⟩
              · obtain ⟨v, as', y', rfl, hv, h3, h4⟩ := pending_some h1
                simp only [List.length_cons] at hk
                obtain ⟨front, rfl, h5, h6, h7⟩ := ih as' (by omega) h4
                simp only at h3; subst h3
                exact ⟨_ :: v :: front, rfl, .longNext hm hv h5, h6, h7⟩
              · obtain ⟨front, rfl, h5, h6, h7⟩ := ih as (by omega) h1
                exact ⟨_ :: front, rfl, .longEquals hm h5, h6, h7⟩
          · rw [scan_letters (by simp) (by simpa using hc) as] at hs
            cases hsh : scanShort decl (c :: t) with
            | none => rw [hsh] at hs; cases hs
            | some r =>
              obtain ⟨is', p⟩ := r
              rw [hsh, Option.bind_some] at hs
              obtain ⟨y, h1, h2⟩ := prepend_some hs
              simp only at h1 h2; subst h2
              obtain ⟨cs, names, hf, hcase⟩ := scanShort_shape hsh
              rcases hcase with ⟨e1, rfl, rfl⟩ | ⟨c', n, hm, ⟨e1, rfl, rfl⟩ | ⟨v, e1, rfl, rfl⟩ | ⟨d, v, hd, e1, rfl, rfl⟩⟩
              · obtain ⟨front, rfl, h5, h6, h7⟩ := ih as (by omega) h1
                refine ⟨_ :: front, rfl, ?_, h6, h7⟩
                rw [e1]
                exact .letters (by rw [← e1]; simp) hf h5
              · obtain ⟨v, as', y', rfl, hv, h3, h4⟩ := pending_some h1
                simp only [List.length_cons] at hk
                obtain ⟨front, rfl, h5, h6, h7⟩ := ih as' (by omega) h4
                simp only at h3; subst h3
                refine ⟨_ :: v :: front, rfl, ?_, h6, h7⟩
                rw [e1]
                exact .letterNext hf hm hv h5
              · obtain ⟨front, rfl, h5, h6, h7⟩ := ih as (by omega) h1
                refine ⟨_ :: front, rfl, ?_, h6, h7⟩
                rw [e1, List.append_assoc]
                exact .letterEquals hf hm h5
              · obtain ⟨front, rfl, h5, h6, h7⟩ := ih as (by omega) h1
                refine ⟨_ :: front, rfl, ?_, h6, h7⟩
                rw [e1, List.append_assoc]
                exact .letterAttached hf hm hd h5

/-! ### What options mean -/

theorem item_name (i : CliItem) (n : Text) : i.name = some n ↔ i = .flag n ∨ ∃ v, i = .opt n v := by
  cases i <;> simp [CliItem.name, eq_comm]

theorem noRepeats_iff (is : List CliItem) : noRepeats is = true ↔ OnceEach is := by
  unfold noRepeats OnceEach
  rw [decide_eq_true_iff, List.nodup_iff_pairwise_ne, List.pairwise_filterMap]
  apply List.Pairwise.iff
  intro a b
  constructor
  · intro h n ha hb
    exact h n ((item_name a n).2 ha) n ((item_name b n).2 hb) rfl
  · rintro h n ha m hb rfl
    exact h n ((item_name a n).1 ha) ((item_name b n).1 hb)

theorem given_iff (is : List CliItem) (n : Text) : (is.filterMap CliItem.name).contains n = true ↔ Given is n := by
  rw [List.contains_iff_mem, List.mem_filterMap]
  constructor
  · rintro ⟨i, hi, hn⟩
    rcases (item_name i n).1 hn with rfl | ⟨v, rfl⟩
    · exact .inl hi
    · exact .inr ⟨v, hi⟩
  · rintro (h | ⟨v, h⟩)
    · exact ⟨_, h, rfl⟩
    · exact ⟨_, h, rfl⟩

theorem wordsGiven_iff (is : List CliItem) (ws : List Text) : wordsGiven is = ws ↔ Words is ws := by
  constructor
  · rintro rfl
    induction is with
    | nil => exact .nil
    | cons i is ih =>
      cases i with
      | flag n => exact .flag ih
      | opt n v => exact .opt ih
      | word w => exact .word ih
  · intro h
    induction h with
    | nil => rfl
    | flag _ ih => exact ih
    | opt _ ih => exact ih
    | word _ ih => exact congrArg _ ih

theorem value_some {is : List CliItem} {n v : Text} (h : valueGiven is n = some v) : .opt n v ∈ is := by
  unfold valueGiven at h
  obtain ⟨i, hi, hv⟩ := List.exists_of_findSome?_eq_some h
  cases i with
  | flag m => cases hv
  | word w => cases hv
  | opt m v' =>
    simp only at hv
    split at hv
    · rename_i e; cases hv; rw [← e]; exact hi
    · cases hv

theorem value_none {is : List CliItem} {n : Text} (h : valueGiven is n = none) (v : Text) : .opt n v ∉ is := by
  unfold valueGiven at h
  rw [List.findSome?_eq_none_iff] at h
  intro hm
  have := h _ hm
  simp at this

theorem once_value {is : List CliItem} (ho : OnceEach is) {n v v' : Text} (h : .opt n v ∈ is) (h' : .opt n v' ∈ is) : v = v' := by
  apply Classical.byContradiction
  intro hne
  induction is with
  | nil => cases h
  | cons i is ih =>
    obtain ⟨h1, h2⟩ := List.pairwise_cons.1 ho
    rcases List.mem_cons.1 h with e | e <;> rcases List.mem_cons.1 h' with e' | e'
    · rw [← e] at e'; cases e'; exact hne rfl
    · exact h1 _ e' n (.inr ⟨v, e.symm⟩) (.inr ⟨v', rfl⟩)
    · exact h1 _ e n (.inr ⟨v', e'.symm⟩) (.inr ⟨v, rfl⟩)
    · exact ih h2 e e'

theorem value_iff {is : List CliItem} (ho : OnceEach is) (n v : Text) : valueGiven is n = some v ↔ .opt n v ∈ is := by
  refine ⟨value_some, fun h => ?_⟩
  cases e : valueGiven is n with
  | none => exact absurd h (value_none e v)
  | some v' => rw [once_value ho (value_some e) h]

theorem valueOr_iff {is : List CliItem} (ho : OnceEach is) (n dflt v : Text) : (valueGiven is n).getD dflt = v ↔ ValueOr is n dflt v := by
  unfold ValueOr
  cases e : valueGiven is n with
  | none =>
    have := value_none e
    simp [this, eq_comm]
  | some v' =>
    have h1 := value_some e
    simp only [Option.getD_some]
    constructor
    · rintro rfl; exact .inl h1
    · rintro (h | ⟨h, -⟩)
      · exact once_value ho h1 h
      · exact absurd h1 (h v')

theorem switch_iff (is : List CliItem) (n : Text) (b : Bool) : flagGiven is n = b ↔ Switch is n b := by
  unfold flagGiven Switch
  rw [← List.contains_iff_mem]
  cases b <;> simp

theorem level_iff (t : Text) (l : LevelFilter) : LevelFilter.fromStr t = some l ↔ LevelMeans t l := by
  unfold LevelFilter.fromStr
  generalize hu : t.map Char.toUpper = u
  constructor
  · intro h
    simp only [List.find?_cons, List.find?_nil] at h
    by_cases h1 : "OFF".toList = u
    · simp only [beq_iff_eq.2 h1] at h; cases h; exact .off (hu.trans h1.symm)
    by_cases h2 : "ERROR".toList = u
    · simp only [beq_eq_false_iff_ne.2 h1, beq_iff_eq.2 h2] at h; cases h; exact .error (hu.trans h2.symm)
    by_cases h3 : "WARN".toList = u
    · simp only [beq_eq_false_iff_ne.2 h1, beq_eq_false_iff_ne.2 h2, beq_iff_eq.2 h3] at h; cases h; exact .warn (hu.trans h3.symm)
    by_cases h4 : "INFO".toList = u
    · simp only [beq_eq_false_iff_ne.2 h1, beq_eq_false_iff_ne.2 h2, beq_eq_false_iff_ne.2 h3, beq_iff_eq.2 h4] at h
      cases h; exact .info (hu.trans h4.symm)
    by_cases h5 : "DEBUG".toList = u
    · simp only [beq_eq_false_iff_ne.2 h1, beq_eq_false_iff_ne.2 h2, beq_eq_false_iff_ne.2 h3, beq_eq_false_iff_ne.2 h4, beq_iff_eq.2 h5] at h
      cases h; exact .debug (hu.trans h5.symm)
    by_cases h6 : "TRACE".toList = u
    · simp only [beq_eq_false_iff_ne.2 h1, beq_eq_false_iff_ne.2 h2, beq_eq_false_iff_ne.2 h3, beq_eq_false_iff_ne.2 h4, beq_eq_false_iff_ne.2 h5,
        beq_iff_eq.2 h6] at h
      cases h; exact .trace (hu.trans h6.symm)
    · simp only [beq_eq_false_iff_ne.2 h1, beq_eq_false_iff_ne.2 h2, beq_eq_false_iff_ne.2 h3, beq_eq_false_iff_ne.2 h4, beq_eq_false_iff_ne.2 h5,
        beq_eq_false_iff_ne.2 h6] at h
      cases h
  · intro h
    cases h <;> (rename_i e; rw [hu] at e; subst e; decide +kernel)

/-- The parsers of the values. -/
def cliReaders (uenv : UrlEnv) (lossy : Bytes → Text) : Readers where
  magnet t m := Magnet.parse (urlParse uenv) lossy t = .ok m
  tracker t r := Tracker.parse (urlParse uenv) t = .ok r
  infoHash t h := InfoHash.fromStr (utf8 t) = .ok h
  template t e := PathTemplate.fromStr t = .ok e
  peer t p := Peer.fromStr t = some p

theorem toOption_some {ε α : Type} {x : Except ε α} {a : α} : x.toOption = some a ↔ x = .ok a := by
  cases x <;> simp [Except.toOption]

theorem infoHash_reads (t : Text) (h : InfoHash) : readInfoHash t = some h ↔ InfoHash.fromStr (utf8 t) = .ok h := toOption_some

theorem outfile_iff {is : List CliItem} (ho : OnceEach is) (t : List TemplateElement) :
    readOutfile is = some t ↔ ∃ o, ValueOr is "outfile".toList "{name}.torrent".toList o ∧ PathTemplate.fromStr o = .ok t := by
  unfold readOutfile
  rw [toOption_some]
  constructor
  · intro h; exact ⟨_, (valueOr_iff ho _ _ _).1 rfl, h⟩
  · rintro ⟨o, h1, h2⟩; rw [(valueOr_iff ho _ _ _).2 h1]; exact h2

theorem input_iff (w : Text) (f : InputArg) : InputArg.fromArg w = f ↔ InputMeans w f := by
  unfold InputArg.fromArg
  constructor
  · rintro rfl
    split
    · rename_i h; rw [h]; exact .stdin
    · rename_i h; exact .path h
  · rintro (_ | h)
    · rfl
    · rw [if_neg h]

theorem conflicting_iff (is : List CliItem) (l : List (Text × Text)) :
    conflicting is l = false ↔ ∀ p ∈ l, ¬ (Given is p.1 ∧ Given is p.2) := by
  unfold conflicting
  rw [List.any_eq_false]
  simp only [Bool.and_eq_true, given_iff]

theorem conflicts_two {is : List CliItem} (a b : Text) : conflicting is [(a, b)] = false ↔ AtMostOne is [b, a] := by
  rw [conflicting_iff]
  simp only [AtMostOne, List.mem_cons, List.not_mem_nil, or_false, forall_eq, List.pairwise_cons, List.Pairwise.nil, and_true,
    false_imp_iff, implies_true, and_comm (a := Given is a)]

theorem conflicts_three {is : List CliItem} (a b c : Text) :
    conflicting is [(a, b), (a, c), (c, b)] = false ↔ AtMostOne is [a, b, c] := by
  rw [conflicting_iff]
  simp only [AtMostOne, List.mem_cons, List.not_mem_nil, or_false, forall_eq_or_imp, forall_eq, List.pairwise_cons, List.Pairwise.nil, and_true,
    false_imp_iff, implies_true, and_comm (a := Given is c)]
  exact ⟨fun ⟨h1, h2, h3⟩ => ⟨⟨h1, h2⟩, h3⟩, fun ⟨⟨h1, h2⟩, h3⟩ => ⟨h1, h2, h3⟩⟩

theorem conflicts_three' {is : List CliItem} (a b c : Text) :
    conflicting is [(b, a), (c, a), (c, b)] = false ↔ AtMostOne is [a, b, c] := by
  rw [conflicting_iff]
  simp only [AtMostOne, List.mem_cons, List.not_mem_nil, or_false, forall_eq_or_imp, forall_eq, List.pairwise_cons, List.Pairwise.nil, and_true,
    false_imp_iff, implies_true, and_comm (a := Given is c), and_comm (a := Given is b) (b := Given is a)]
  exact ⟨fun ⟨h1, h2, h3⟩ => ⟨⟨h1, h2⟩, h3⟩, fun ⟨⟨h1, h2⟩, h3⟩ => ⟨h1, h2, h3⟩⟩

theorem words_one {is : List CliItem} {α : Type} (f : Text → Option α) (x : α) :
    withWord f (wordsGiven is) = some x ↔ ∃ w, Words is [w] ∧ f w = some x := by
  simp only [← wordsGiven_iff]
  constructor
  · intro h
    unfold withWord at h
    split at h
    · rename_i w e; exact ⟨w, e, h⟩
    · cases h
  · rintro ⟨w, e, h⟩
    rw [e]; exact h

theorem words_two {is : List CliItem} {α : Type} (f : Text → Text → Option α) (x : α) :
    withWords f (wordsGiven is) = some x ↔ ∃ v w, Words is [v, w] ∧ f v w = some x := by
  simp only [← wordsGiven_iff]
  constructor
  · intro h
    unfold withWords at h
    split at h
    · rename_i v w e; exact ⟨v, w, e, h⟩
    · cases h
  · rintro ⟨v, w, e, h⟩
    rw [e]; exact h

section
variable (uenv : UrlEnv) (lossy : Bytes → Text) {is : List CliItem} (ho : OnceEach is) (c : Command)
include ho

theorem get_means : readCommand uenv lossy "get".toList is = some c ↔ CommandMeans (cliReaders uenv lossy) "get".toList is c := by
  rw [readCommand, if_pos rfl, words_one]
  simp only [Option.bind_eq_some_iff, Option.map_eq_some_iff, toOption_some, outfile_iff ho]
  constructor
  · rintro ⟨w, hw, t, ⟨o, h1, h2⟩, m, h3, rfl⟩
    exact .get hw h1 h2 h3
  · generalize e : "get".toList = n
    intro h
    cases h with
    | get hw h1 h2 h3 => exact ⟨_, hw, _, ⟨_, h1, h2⟩, _, h3, rfl⟩
    | _ => exact absurd e (by decide +kernel)

theorem batch_means : readCommand uenv lossy "batch".toList is = some c ↔ CommandMeans (cliReaders uenv lossy) "batch".toList is c := by
  rw [readCommand, if_neg (by decide +kernel), if_pos rfl, words_one]
  simp only [Option.map_eq_some_iff, outfile_iff ho]
  constructor
  · rintro ⟨w, hw, t, ⟨o, h1, h2⟩, rfl⟩
    exact .batch hw h1 h2 ((input_iff _ _).1 rfl)
  · generalize e : "batch".toList = n
    intro h
    cases h with
    | batch hw h1 h2 h3 => exact ⟨_, hw, _, ⟨_, h1, h2⟩, by rw [(input_iff _ _).2 h3]⟩
    | _ => exact absurd e (by decide +kernel)

theorem queryDht_means : readCommand uenv lossy "query-dht".toList is = some c ↔ CommandMeans (cliReaders uenv lossy) "query-dht".toList is c := by
  rw [readCommand, if_neg (by decide +kernel), if_neg (by decide +kernel), if_neg (by decide +kernel), if_pos rfl, words_one]
  simp only [Option.map_eq_some_iff, infoHash_reads]
  constructor
  · rintro ⟨w, hw, h, h1, rfl⟩
    exact .queryDht hw h1 ((switch_iff _ _ _).1 rfl)
  · generalize e : "query-dht".toList = n
    intro h
    cases h with
    | queryDht hw h1 h2 => exact ⟨_, hw, _, h1, by rw [(switch_iff _ _ _).2 h2]⟩
    | _ => exact absurd e (by decide +kernel)

theorem queryTracker_means (hc : AtMostOne is ["no-crypto".toList, "require-crypto".toList, "support-crypto".toList]) :
    readCommand uenv lossy "query-tracker".toList is = some c ↔ CommandMeans (cliReaders uenv lossy) "query-tracker".toList is c := by
  rw [readCommand, if_neg (by decide +kernel), if_neg (by decide +kernel), if_pos rfl, words_two]
  simp only [Option.bind_eq_some_iff, Option.map_eq_some_iff, infoHash_reads, toOption_some]
  constructor
  · rintro ⟨v, w, hw, t, h1, h, h2, rfl⟩
    exact .queryTracker hw h1 h2 ((switch_iff _ _ _).1 rfl) ((switch_iff _ _ _).1 rfl) ((switch_iff _ _ _).1 rfl) ((switch_iff _ _ _).1 rfl) hc
  · generalize e : "query-tracker".toList = n
    intro h
    cases h with
    | queryTracker hw h1 h2 h3 h4 h5 h6 _ =>
      exact ⟨_, _, hw, _, h1, _, h2, by
        rw [(switch_iff _ _ _).2 h3, (switch_iff _ _ _).2 h4, (switch_iff _ _ _).2 h5, (switch_iff _ _ _).2 h6]⟩
    | _ => exact absurd e (by decide +kernel)

theorem queryPeer_means (hc : AtMostOne is ["encrypt".toList, "no-encrypt".toList, "prefer-encrypt".toList]) :
    readCommand uenv lossy "query-peer".toList is = some c ↔ CommandMeans (cliReaders uenv lossy) "query-peer".toList is c := by
  rw [readCommand, if_neg (by decide +kernel), if_neg (by decide +kernel), if_neg (by decide +kernel), if_neg (by decide +kernel), if_pos rfl,
    words_two]
  simp only [Option.bind_eq_some_iff, Option.map_eq_some_iff, infoHash_reads, outfile_iff ho]
  constructor
  · rintro ⟨v, w, hw, t, ⟨o, h1, h2⟩, p, h3, h, h4, rfl⟩
    exact .queryPeer hw h3 h4 h1 h2 ((switch_iff _ _ _).1 rfl) ((switch_iff _ _ _).1 rfl) ((switch_iff _ _ _).1 rfl) hc
  · generalize e : "query-peer".toList = n
    intro h
    cases h with
    | queryPeer hw h3 h4 h1 h2 h5 h6 h7 _ =>
      exact ⟨_, _, hw, _, ⟨_, h1, h2⟩, _, h3, _, h4, by
        rw [(switch_iff _ _ _).2 h5, (switch_iff _ _ _).2 h6, (switch_iff _ _ _).2 h7]⟩
    | _ => exact absurd e (by decide +kernel)

end

theorem globals_iff {is : List CliItem} (ho : OnceEach is) (hc : AtMostOne is ["config".toList, "no-config".toList]) (c : Command) (l : CommandLine) :
    readGlobals is c = some l ↔ GlobalsMean is l ∧ l.command = c := by
  unfold readGlobals
  constructor
  · intro h
    split at h
    · cases h
    · rename_i hn
      simp only [Option.map_eq_some_iff, level_iff] at h
      obtain ⟨v, h1, rfl⟩ := h
      exact ⟨⟨fun p => value_iff ho _ p, hn, (switch_iff _ _ _).1 rfl, hc, _, (valueOr_iff ho _ _ _).1 rfl, h1⟩, rfl⟩
  · rintro ⟨⟨h1, h2, h3, -, t, h4, h5⟩, rfl⟩
    have hcfg : valueGiven is "config".toList = l.config := by
      cases e : l.config with
      | none =>
        cases e' : valueGiven is "config".toList with
        | none => rfl
        | some p => rw [(h1 p).2 (value_some e')] at e; cases e
      | some p => exact (value_iff ho _ p).2 ((h1 p).1 e)
    rw [if_neg (by rw [hcfg]; exact h2), (valueOr_iff ho _ _ _).2 h4, (level_iff _ _).2 h5, hcfg, (switch_iff _ _ _).2 h3]
    rfl

theorem good_globals : GoodDecl manualGlobals := by decide +kernel

theorem good_options : ∀ p ∈ manualOptions, GoodDecl p.2 := by decide +kernel

theorem plain_names : ∀ p ∈ manualOptions, isPlainArg p.1 = true := by decide +kernel

theorem globals_same : globalOptions = manualGlobals := by decide +kernel

theorem subcommand_find {name : Text} {x : Text × List CliOption × List (Text × Text)}
    (h : (subcommands.find? fun c => c.1 == name) = some x) : x.1 = name ∧ (name, x.2.1) ∈ manualOptions := by
  have h1 : x.1 = name := by simpa using List.find?_some h
  have h2 := List.mem_of_find?_eq_some h
  have key : ∀ x ∈ subcommands, (x.1, x.2.1) ∈ manualOptions := by decide +kernel
  exact ⟨h1, h1 ▸ key x h2⟩

/-- What is done with the items once they are read. -/
theorem parse_items (uenv : UrlEnv) (lossy : Bytes → Text) (args : List Text) (l : CommandLine) :
    CommandLine.parse uenv lossy args = some l ↔ ∃ gs name rest decl conflicts is,
      scanArgs globalOptions false none args = some (gs, name :: rest) ∧ (name, decl, conflicts) ∈ subcommands ∧
      scanArgs decl true none rest = some (is, []) ∧ OnceEach gs ∧ OnceEach is ∧ conflicting gs globalConflicts = false ∧
      conflicting is conflicts = false ∧ (readCommand uenv lossy name is).bind (readGlobals gs) = some l := by
  have hgood : ∀ x ∈ subcommands, GoodDecl x.2.1 := by decide +kernel
  have huniq : ∀ x ∈ subcommands, (subcommands.find? fun c => c.1 == x.1) = some x := by
    have h : subcommands.Pairwise fun a b => a.1 ≠ b.1 := by decide +kernel
    intro x hx
    obtain ⟨l, r, e⟩ := List.append_of_mem hx
    rw [e] at h ⊢
    rw [List.find?_append, List.find?_eq_none.2]
    · simp
    · intro y hy hyx
      exact (List.pairwise_append.1 h).2.2 y hy x (by simp) (by simpa using hyx)
  unfold CommandLine.parse
  constructor
  · intro h
    split at h
    · rename_i gs name rest e
      cases e2 : subcommands.find? fun c => c.1 == name with
      | none => rw [e2] at h; cases h
      | some x =>
        obtain ⟨name', decl, conflicts⟩ := x
        rw [e2] at h
        have h1 : name' = name := by simpa using List.find?_some e2
        subst h1
        have h2 := List.mem_of_find?_eq_some e2
        simp only at h
        cases e3 : scanArgs decl true none rest with
        | none => rw [e3] at h; cases h
        | some r =>
          obtain ⟨is, r⟩ := r
          rw [e3] at h
          simp only at h
          split at h
          · rename_i hcond
            simp only [Bool.and_eq_true, Bool.not_eq_true', noRepeats_iff] at hcond
            obtain ⟨front, -, -, hr, -⟩ := scans_spelled (hgood _ h2) _ rest (Nat.le_refl _) e3
            rw [hr rfl] at e3
            exact ⟨gs, name', rest, decl, conflicts, is, e, h2, e3, hcond.1.1.1, hcond.1.1.2, hcond.1.2, hcond.2, h⟩
          · cases h
    · cases h
  · rintro ⟨gs, name, rest, decl, conflicts, is, h1, h2, h3, h4, h5, h6, h7, h8⟩
    rw [h1]
    simp only
    rw [huniq _ h2]
    simp only [h3, (noRepeats_iff _).2 h4, (noRepeats_iff _).2 h5, h6, h7, Bool.not_false, Bool.and_true, if_true, h8]

theorem command_means (uenv : UrlEnv) (lossy : Bytes → Text) {name : Text} {decl : List CliOption} {conflicts : List (Text × Text)}
    (hm : (name, decl, conflicts) ∈ subcommands) {is : List CliItem} (ho : OnceEach is) (c : Command) :
    (conflicting is conflicts = false ∧ readCommand uenv lossy name is = some c) ↔ CommandMeans (cliReaders uenv lossy) name is c := by
  unfold subcommands at hm
  simp only [List.mem_cons, List.not_mem_nil, or_false, Prod.mk.injEq] at hm
  rcases hm with ⟨rfl, rfl, rfl⟩ | ⟨rfl, rfl, rfl⟩ | ⟨rfl, rfl, rfl⟩ | ⟨rfl, rfl, rfl⟩ | ⟨rfl, rfl, rfl⟩
  · rw [get_means uenv lossy ho]; simp [conflicting]
  · rw [batch_means uenv lossy ho]; simp [conflicting]
  · rw [conflicts_three]
    constructor
    · rintro ⟨h1, h2⟩; exact (queryTracker_means uenv lossy ho c h1).1 h2
    · intro h
      have hc : AtMostOne is ["no-crypto".toList, "require-crypto".toList, "support-crypto".toList] := by
        generalize e : "query-tracker".toList = n at h
        cases h with
        | queryTracker _ _ _ _ _ _ _ hc => exact hc
        | _ => exact absurd e (by decide +kernel)
      exact ⟨hc, (queryTracker_means uenv lossy ho c hc).2 h⟩
  · rw [queryDht_means uenv lossy ho]; simp [conflicting]
  · rw [conflicts_three']
    constructor
    · rintro ⟨h1, h2⟩; exact (queryPeer_means uenv lossy ho c h1).1 h2
    · intro h
      have hc : AtMostOne is ["encrypt".toList, "no-encrypt".toList, "prefer-encrypt".toList] := by
        generalize e : "query-peer".toList = n at h
        cases h with
        | queryPeer _ _ _ _ _ _ _ _ hc => exact hc
        | _ => exact absurd e (by decide +kernel)
      exact ⟨hc, (queryPeer_means uenv lossy ho c hc).2 h⟩

/-- **C76.** A command line is accepted exactly if it is written as the manual says, and then means what the manual says. -/
theorem command_line_iff (uenv : UrlEnv) (lossy : Bytes → Text) (args : List Text) (l : CommandLine) :
    CommandLine.parse uenv lossy args = some l ↔ CommandLineMeans (cliReaders uenv lossy) args l := by
  have hmem : ∀ x ∈ subcommands, (x.1, x.2.1) ∈ manualOptions := by decide +kernel
  have hmem' : ∀ y ∈ manualOptions, ∃ x ∈ subcommands, (x.1, x.2.1) = y := by decide +kernel
  rw [parse_items]
  constructor
  · rintro ⟨gs, name, rest, decl, conflicts, is, h1, h2, h3, h4, h5, h6, h7, h8⟩
    have hd := hmem _ h2
    rw [globals_same] at h1
    obtain ⟨front, rfl, hs, -, -⟩ := scans_spelled good_globals _ args (Nat.le_refl _) h1
    obtain ⟨back, e, hs', -, -⟩ := scans_spelled (good_options _ hd) _ rest (Nat.le_refl _) h3
    rw [List.append_nil] at e; subst e
    obtain ⟨c, hc, hg⟩ := Option.bind_eq_some_iff.1 h8
    have hconf : AtMostOne gs ["config".toList, "no-config".toList] := (conflicts_two _ _).1 h6
    obtain ⟨hg1, hg2⟩ := (globals_iff h4 hconf c l).1 hg
    refine ⟨front, gs, name, decl, _, is, rfl, hs, h4, hg1, hd, hs', h5, ?_⟩
    rw [hg2]
    exact (command_means uenv lossy h2 h5 c).1 ⟨h7, hc⟩
  · rintro ⟨front, gs, name, decl, back, is, rfl, hs, h4, hg, hd, hs', h5, hc⟩
    obtain ⟨⟨name', decl', conflicts⟩, h2, e⟩ := hmem' _ hd
    obtain ⟨e1, e2⟩ := Prod.mk.inj e
    simp only at e1 e2
    rw [e1, e2] at h2
    have hp : PlainArg name := (isPlainArg_iff _).1 (plain_names _ hd)
    have h1 := spelled_scans good_globals hs (name :: back) (by simp)
    rw [scan_word hp, ← globals_same] at h1
    have h3 := spelled_scans (good_options _ hd) hs' [] (fun _ => rfl)
    rw [List.append_nil, scanArgs] at h3
    obtain ⟨h7, h8⟩ := (command_means uenv lossy h2 h5 l.command).2 hc
    refine ⟨gs, name, back, decl, conflicts, is, by simpa [prependItems] using h1, h2, by simpa [prependItems] using h3, h4, h5,
      (conflicts_two _ _).2 hg.conflict, h7, ?_⟩
    rw [h8, Option.bind_some]
    exact (globals_iff h4 hg.conflict _ _).2 ⟨hg, rfl⟩

/-- **C76.** What a command line means depends only on the options and words it spells, not on how it spells them. -/
theorem command_line_spelled (uenv : UrlEnv) (lossy : Bytes → Text) {front back : List Text} {name : Text} {gs is : List CliItem}
    {decl : List CliOption} (hs : Spelled manualGlobals false gs front) (hd : (name, decl) ∈ manualOptions) (hs' : Spelled decl true is back)
    (l : CommandLine) :
    CommandLine.parse uenv lossy (front ++ name :: back) = some l ↔
      OnceEach gs ∧ GlobalsMean gs l ∧ OnceEach is ∧ CommandMeans (cliReaders uenv lossy) name is l.command := by
  constructor
  · intro h
    have hmem : ∀ x ∈ subcommands, (x.1, x.2.1) ∈ manualOptions := by decide +kernel
    have huniq : manualOptions.Pairwise fun a b => a.1 ≠ b.1 := by decide +kernel
    obtain ⟨gs', name', rest, decl', conflicts, is', h1, h2, h3, h4, h5, h6, h7, h8⟩ := (parse_items uenv lossy _ l).1 h
    have hp : PlainArg name := (isPlainArg_iff _).1 (plain_names _ hd)
    have e1 := spelled_scans good_globals hs (name :: back) (by simp)
    rw [scan_word hp, ← globals_same, h1] at e1
    simp only [Bool.false_eq_true, if_false, prependItems, Option.map_some, List.append_nil, Option.some.injEq, Prod.mk.injEq,
      List.cons.injEq] at e1
    obtain ⟨rfl, rfl, rfl⟩ := e1
    have hd' := hmem _ h2
    have e2 : decl' = decl := by
      have hall : ∀ a ∈ manualOptions, ∀ b ∈ manualOptions, a.1 = b.1 → a.2 = b.2 := by decide +kernel
      exact hall _ hd' _ hd rfl
    subst e2
    have e3 := spelled_scans (good_options _ hd) hs' [] (fun _ => rfl)
    rw [List.append_nil, h3, scanArgs] at e3
    simp only [prependItems, Option.map_some, List.append_nil, Option.some.injEq, Prod.mk.injEq, and_true] at e3
    subst e3
    obtain ⟨c, hc, hg⟩ := Option.bind_eq_some_iff.1 h8
    obtain ⟨hg1, hg2⟩ := (globals_iff h4 ((conflicts_two _ _).1 h6) c l).1 hg
    refine ⟨h4, hg1, h5, ?_⟩
    rw [hg2]
    exact (command_means uenv lossy h2 h5 c).1 ⟨h7, hc⟩
  · rintro ⟨h1, h2, h3, h4⟩
    exact (command_line_iff uenv lossy _ l).2 ⟨front, gs, name, decl, back, is, rfl, hs, h1, h2, hd, hs', h3, h4⟩

theorem onceEach_perm {is is' : List CliItem} (h : is.Perm is') : OnceEach is → OnceEach is' := by
  unfold OnceEach
  intro hp
  refine (h.pairwise_iff ?_).1 hp
  intro a b hab n hb ha
  exact hab n ha hb

theorem given_perm {is is' : List CliItem} (h : is.Perm is') (n : Text) : Given is n ↔ Given is' n := by
  unfold Given
  simp only [h.mem_iff]

theorem atMostOne_perm {is is' : List CliItem} (h : is.Perm is') (ns : List Text) : AtMostOne is ns ↔ AtMostOne is' ns := by
  unfold AtMostOne
  simp only [given_perm h]

theorem valueOr_perm {is is' : List CliItem} (h : is.Perm is') (n d v : Text) : ValueOr is n d v ↔ ValueOr is' n d v := by
  unfold ValueOr
  simp only [h.mem_iff]

theorem switch_perm {is is' : List CliItem} (h : is.Perm is') (n : Text) (b : Bool) : Switch is n b ↔ Switch is' n b := by
  unfold Switch
  simp only [h.mem_iff]

theorem words_eq {is : List CliItem} {ws ws' : List Text} (h : Words is ws) (h' : Words is ws') : ws = ws' := by
  rw [← wordsGiven_iff] at h h'
  exact h.symm.trans h'

theorem commandMeans_perm {R : Readers} {name : Text} {is is' : List CliItem} {ws : List Text} (h : is.Perm is') (hw : Words is ws)
    (hw' : Words is' ws) {c : Command} (hc : CommandMeans R name is c) : CommandMeans R name is' c := by
  cases hc with
  | get h1 h2 h3 h4 => exact .get (words_eq h1 hw ▸ hw') ((valueOr_perm h _ _ _).1 h2) h3 h4
  | batch h1 h2 h3 h4 => exact .batch (words_eq h1 hw ▸ hw') ((valueOr_perm h _ _ _).1 h2) h3 h4
  | queryTracker h1 h2 h3 h4 h5 h6 h7 h8 =>
    exact .queryTracker (words_eq h1 hw ▸ hw') h2 h3 ((switch_perm h _ _).1 h4) ((switch_perm h _ _).1 h5) ((switch_perm h _ _).1 h6)
      ((switch_perm h _ _).1 h7) ((atMostOne_perm h _).1 h8)
  | queryDht h1 h2 h3 => exact .queryDht (words_eq h1 hw ▸ hw') h2 ((switch_perm h _ _).1 h3)
  | queryPeer h1 h2 h3 h4 h5 h6 h7 h8 h9 =>
    exact .queryPeer (words_eq h1 hw ▸ hw') h2 h3 ((valueOr_perm h _ _ _).1 h4) h5 ((switch_perm h _ _).1 h6) ((switch_perm h _ _).1 h7)
      ((switch_perm h _ _).1 h8) ((atMostOne_perm h _).1 h9)

theorem globalsMean_perm {is is' : List CliItem} (h : is.Perm is') {l : CommandLine} (hg : GlobalsMean is l) : GlobalsMean is' l := by
  obtain ⟨t, h1, h2⟩ := hg.logLevel
  exact ⟨fun p => by rw [hg.config, h.mem_iff], hg.notEmpty, (switch_perm h _ _).1 hg.noConfig, (atMostOne_perm h _).1 hg.conflict,
    t, (valueOr_perm h _ _ _).1 h1, h2⟩

/-- **C76.** The order of the options, and where they stand between the words, does not matter. -/
theorem command_line_order (uenv : UrlEnv) (lossy : Bytes → Text) {front back front' back' : List Text} {name : Text}
    {gs is gs' is' : List CliItem} {decl : List CliOption} {ws : List Text} (hd : (name, decl) ∈ manualOptions)
    (hs : Spelled manualGlobals false gs front) (hb : Spelled decl true is back)
    (hs' : Spelled manualGlobals false gs' front') (hb' : Spelled decl true is' back')
    (hg : gs.Perm gs') (hi : is.Perm is') (hw : Words is ws) (hw' : Words is' ws) :
    CommandLine.parse uenv lossy (front ++ name :: back) = CommandLine.parse uenv lossy (front' ++ name :: back') := by
  have key : ∀ l, CommandLine.parse uenv lossy (front ++ name :: back) = some l ↔ CommandLine.parse uenv lossy (front' ++ name :: back') = some l := by
    intro l
    rw [command_line_spelled uenv lossy hs hd hb, command_line_spelled uenv lossy hs' hd hb']
    constructor
    · rintro ⟨h1, h2, h3, h4⟩
      exact ⟨onceEach_perm hg h1, globalsMean_perm hg h2, onceEach_perm hi h3, commandMeans_perm hi hw hw' h4⟩
    · rintro ⟨h1, h2, h3, h4⟩
      exact ⟨onceEach_perm hg.symm h1, globalsMean_perm hg.symm h2, onceEach_perm hi.symm h3, commandMeans_perm hi.symm hw' hw h4⟩
  cases e : CommandLine.parse uenv lossy (front' ++ name :: back') with
  | some l => exact (key l).2 e
  | none =>
    cases e' : CommandLine.parse uenv lossy (front ++ name :: back) with
    | none => rfl
    | some l => rw [(key l).1 e'] at e; cases e

/-- Items in a plain order: options with values, flags, words. -/
def plainItems (opts : List (Text × Text)) (flags ws : List Text) : List CliItem :=
  opts.map (fun p => .opt p.1 p.2) ++ (flags.map .flag ++ ws.map .word)

/-- These items written as `--option=value`, `--flag`, and words after `--`. -/
def plainArgs (opts : List (Text × Text)) (flags : List Text) (tail : List Text) : List Text :=
  opts.map (fun p => '-' :: '-' :: p.1 ++ '=' :: p.2) ++ (flags.map (fun n => '-' :: '-' :: n) ++ tail)

theorem plain_spelled {decl : List CliOption} {words : Bool} {is : List CliItem} {tail : List Text} (opts : List (Text × Text)) (flags : List Text)
    (ho : ∀ n ∈ opts.map Prod.fst, ∃ o ∈ decl, o.long = n ∧ o.value = true) (hf : ∀ n ∈ flags, ∃ o ∈ decl, o.long = n ∧ o.value = false)
    (ht : Spelled decl words is tail) :
    Spelled decl words (opts.map (fun p => .opt p.1 p.2) ++ (flags.map .flag ++ is)) (plainArgs opts flags tail) := by
  unfold plainArgs
  induction opts with
  | nil =>
    simp only [List.map_nil, List.nil_append]
    induction flags with
    | nil => exact ht
    | cons n flags ih =>
      obtain ⟨⟨m, s, b⟩, hs, e1, e2⟩ := hf n (by simp)
      cases e1; cases e2
      exact .longFlag hs (ih fun n hn => hf n (by simp [hn]))
  | cons p opts ih =>
    obtain ⟨⟨m, s, b⟩, hs, e1, e2⟩ := ho p.1 (by simp)
    simp only at e1 e2
    subst e1 e2
    exact .longEquals hs (ih fun n hn => ho n (by rw [List.map_cons]; exact List.mem_cons_of_mem _ hn))

theorem plain_once (opts : List (Text × Text)) (flags ws : List Text) (h : (opts.map Prod.fst ++ flags).Nodup) :
    OnceEach (plainItems opts flags ws) := by
  rw [← noRepeats_iff]
  have e : (plainItems opts flags ws).filterMap CliItem.name = opts.map Prod.fst ++ flags := by
    simp [plainItems, List.filterMap_append, List.filterMap_map, Function.comp_def, CliItem.name]
  simp [noRepeats, e, h]

theorem plain_words (opts : List (Text × Text)) (flags ws : List Text) : Words (plainItems opts flags ws) ws := by
  rw [← wordsGiven_iff]
  simp [plainItems, wordsGiven, List.filterMap_append, List.filterMap_map, Function.comp_def]

theorem plain_flag (opts : List (Text × Text)) (flags ws : List Text) (n : Text) : .flag n ∈ plainItems opts flags ws ↔ n ∈ flags := by
  simp [plainItems]

theorem plain_opt (opts : List (Text × Text)) (flags ws : List Text) (n v : Text) : .opt n v ∈ plainItems opts flags ws ↔ (n, v) ∈ opts := by
  simp [plainItems]

theorem plain_given {opts : List (Text × Text)} {flags ws : List Text} {n : Text} (h : n ∉ opts.map Prod.fst) :
    Given (plainItems opts flags ws) n ↔ n ∈ flags := by
  unfold Given
  rw [plain_flag]
  constructor
  · rintro (h1 | ⟨v, h1⟩)
    · exact h1
    · rw [plain_opt] at h1
      exact absurd (List.mem_map_of_mem h1) h
  · exact .inl

/-- The values of the command can be written down, and no two of its flags exclude each other. -/
def Writable (R : Readers) : Command → Prop
  | .get t m => (∃ o, R.template o t) ∧ ∃ w, R.magnet w m
  | .batch t f => (∃ o, R.template o t) ∧ f ≠ .path ['-']
  | .queryTracker _ no req sup t h => (∃ v, R.tracker v t) ∧ (∃ w, R.infoHash w h) ∧
      (no = true → req = false ∧ sup = false) ∧ (req = true → sup = false)
  | .queryDht _ h => ∃ w, R.infoHash w h
  | .queryPeer enc no pre t p h => (∃ o, R.template o t) ∧ (∃ v, R.peer v p) ∧ (∃ w, R.infoHash w h) ∧
      (enc = true → no = false ∧ pre = false) ∧ (no = true → pre = false)

theorem command_written {R : Readers} {c : Command} (h : Writable R c) :
    ∃ name decl is back, (name, decl) ∈ manualOptions ∧ Spelled decl true is back ∧ OnceEach is ∧ CommandMeans R name is c := by
  cases c with
  | get t m =>
    obtain ⟨⟨o, ho⟩, w, hw⟩ := h
    refine ⟨"get".toList, _, plainItems [("outfile".toList, o)] [] [w], _, by unfold manualOptions; simp only [List.mem_cons]; exact .inl rfl,
      plain_spelled _ _ ?_ ?_ (.rest rfl), plain_once _ _ _ ?_, .get (plain_words _ _ _) (.inl ((plain_opt _ _ _ _ _).2 (by simp))) ho hw⟩
    · simp only [List.map_cons, List.map_nil]; decide +kernel
    · decide +kernel
    · simp only [List.map_cons, List.map_nil]; decide +kernel
  | batch t f =>
    obtain ⟨⟨o, ho⟩, hf⟩ := h
    have hw : ∃ w, InputMeans w f := by
      cases f with
      | stdin => exact ⟨_, .stdin⟩
      | path p => exact ⟨_, .path fun e => hf (by rw [e])⟩
    obtain ⟨w, hw⟩ := hw
    refine ⟨"batch".toList, _, plainItems [("outfile".toList, o)] [] [w], _,
      by unfold manualOptions; simp only [List.mem_cons]; exact .inr (.inl rfl),
      plain_spelled _ _ ?_ ?_ (.rest rfl), plain_once _ _ _ ?_, .batch (plain_words _ _ _) (.inl ((plain_opt _ _ _ _ _).2 (by simp))) ho hw⟩
    · simp only [List.map_cons, List.map_nil]; decide +kernel
    · decide +kernel
    · simp only [List.map_cons, List.map_nil]; decide +kernel
  | queryDht json h' =>
    obtain ⟨w, hw⟩ := h
    refine ⟨"query-dht".toList, _, plainItems [] (if json then ["json".toList] else []) [w], _,
      by unfold manualOptions; simp only [List.mem_cons]; exact .inr (.inr (.inr (.inl rfl))),
      plain_spelled _ _ ?_ ?_ (.rest rfl), plain_once _ _ _ ?_, .queryDht (plain_words _ _ _) hw ?_⟩
    · decide +kernel
    · cases json <;> decide +kernel
    · cases json <;> decide +kernel
    · rw [Switch, plain_flag]; cases json <;> decide +kernel
  | queryTracker json no req sup t h' =>
    obtain ⟨⟨v, hv⟩, ⟨w, hw⟩, h1, h2⟩ := h
    have hg : ∀ n flags, Given (plainItems [] flags [v, w]) n ↔ n ∈ flags := fun n flags => plain_given (by simp)
    refine ⟨"query-tracker".toList, _, plainItems [] ((if json then ["json".toList] else []) ++ (if no then ["no-crypto".toList] else []) ++
        (if req then ["require-crypto".toList] else []) ++ (if sup then ["support-crypto".toList] else [])) [v, w], _,
      by unfold manualOptions; simp only [List.mem_cons]; exact .inr (.inr (.inl rfl)),
      plain_spelled _ _ ?_ ?_ (.rest rfl), plain_once _ _ _ ?_, .queryTracker (plain_words _ _ _) hv hw ?_ ?_ ?_ ?_ ?_⟩
    · decide +kernel
    · cases json <;> cases no <;> cases req <;> cases sup <;> decide +kernel
    · cases json <;> cases no <;> cases req <;> cases sup <;> decide +kernel
    · rw [Switch, plain_flag]; cases json <;> cases no <;> cases req <;> cases sup <;> decide +kernel
    · rw [Switch, plain_flag]; cases json <;> cases no <;> cases req <;> cases sup <;> decide +kernel
    · rw [Switch, plain_flag]; cases json <;> cases no <;> cases req <;> cases sup <;> decide +kernel
    · rw [Switch, plain_flag]; cases json <;> cases no <;> cases req <;> cases sup <;> decide +kernel
    · unfold AtMostOne
      simp only [hg]
      clear hv hw hg
      revert h1 h2
      cases json <;> cases no <;> cases req <;> cases sup <;> decide +kernel
  | queryPeer enc no pre t p h' =>
    obtain ⟨⟨o, ho⟩, ⟨v, hv⟩, ⟨w, hw⟩, h1, h2⟩ := h
    refine ⟨"query-peer".toList, _, plainItems [("outfile".toList, o)] ((if enc then ["encrypt".toList] else []) ++
        (if no then ["no-encrypt".toList] else []) ++ (if pre then ["prefer-encrypt".toList] else [])) [v, w], _,
      by unfold manualOptions; simp only [List.mem_cons]; exact .inr (.inr (.inr (.inr (.inl rfl)))),
      plain_spelled _ _ ?_ ?_ (.rest rfl), plain_once _ _ _ ?_,
      .queryPeer (plain_words _ _ _) hv hw (.inl ((plain_opt _ _ _ _ _).2 (by simp))) ho ?_ ?_ ?_ ?_⟩
    · simp only [List.map_cons, List.map_nil]; decide +kernel
    · cases enc <;> cases no <;> cases pre <;> decide +kernel
    · simp only [List.map_cons, List.map_nil]; cases enc <;> cases no <;> cases pre <;> decide +kernel
    · rw [Switch, plain_flag]; cases enc <;> cases no <;> cases pre <;> decide +kernel
    · rw [Switch, plain_flag]; cases enc <;> cases no <;> cases pre <;> decide +kernel
    · rw [Switch, plain_flag]; cases enc <;> cases no <;> cases pre <;> decide +kernel
    · have hg : ∀ n flags, n ∈ ["encrypt".toList, "no-encrypt".toList, "prefer-encrypt".toList] →
          (Given (plainItems [("outfile".toList, o)] flags [v, w]) n ↔ n ∈ flags) := fun n flags hn => plain_given (by
            revert n; simp only [List.map_cons, List.map_nil]; decide +kernel)
      unfold AtMostOne
      simp only [List.pairwise_cons, List.mem_cons, List.not_mem_nil, or_false, forall_eq_or_imp, forall_eq, false_imp_iff, implies_true,
        List.Pairwise.nil, and_true]
      rw [hg _ _ (by simp), hg _ _ (by simp), hg _ _ (by simp)]
      clear hv hw hg
      revert h1 h2
      cases enc <;> cases no <;> cases pre <;> decide +kernel

theorem level_written (f : LevelFilter) : ∃ t, LevelMeans t f := by
  cases f
  · exact ⟨"OFF".toList, .off (by decide +kernel)⟩
  · exact ⟨"ERROR".toList, .error (by decide +kernel)⟩
  · exact ⟨"WARN".toList, .warn (by decide +kernel)⟩
  · exact ⟨"INFO".toList, .info (by decide +kernel)⟩
  · exact ⟨"DEBUG".toList, .debug (by decide +kernel)⟩
  · exact ⟨"TRACE".toList, .trace (by decide +kernel)⟩

theorem globals_written (l : CommandLine) (h1 : l.config ≠ some []) (h2 : l.noConfig = true → l.config = none) :
    ∃ gs front, Spelled manualGlobals false gs front ∧ OnceEach gs ∧ GlobalsMean gs l := by
  obtain ⟨t, ht⟩ := level_written l.logLevel
  cases e : l.config with
  | none =>
    refine ⟨plainItems [("log-level".toList, t)] (if l.noConfig then ["no-config".toList] else []) [], _,
      plain_spelled _ _ ?_ ?_ .nil, plain_once _ _ _ ?_, ⟨?_, h1, ?_, ?_, t, .inl ((plain_opt _ _ _ _ _).2 (by simp)), ht⟩⟩
    · simp only [List.map_cons, List.map_nil]; decide +kernel
    · cases l.noConfig <;> decide +kernel
    · simp only [List.map_cons, List.map_nil]; cases l.noConfig <;> decide +kernel
    · intro p
      rw [plain_opt, e]
      simp only [reduceCtorEq, List.mem_cons, Prod.mk.injEq, List.not_mem_nil, or_false, false_iff, not_and]
      intro h; exact absurd h (by decide +kernel)
    · rw [Switch, plain_flag]; cases l.noConfig <;> decide +kernel
    · unfold AtMostOne
      simp only [List.pairwise_cons, List.mem_cons, List.not_mem_nil, or_false, forall_eq_or_imp, forall_eq, false_imp_iff, implies_true,
        List.Pairwise.nil, and_true]
      rw [plain_given (by simp only [List.map_cons, List.map_nil]; decide +kernel)]
      rintro ⟨h, -⟩
      revert h
      cases l.noConfig <;> decide +kernel
  | some p =>
    have hn : l.noConfig = false := by
      cases e2 : l.noConfig with
      | false => rfl
      | true => rw [h2 e2] at e; cases e
    refine ⟨plainItems [("config".toList, p), ("log-level".toList, t)] [] [], _,
      plain_spelled _ _ ?_ ?_ .nil, plain_once _ _ _ ?_, ⟨?_, h1, ?_, ?_, t, .inl ((plain_opt _ _ _ _ _).2 (by simp)), ht⟩⟩
    · simp only [List.map_cons, List.map_nil]; decide +kernel
    · decide +kernel
    · simp only [List.map_cons, List.map_nil]; decide +kernel
    · intro p'
      rw [plain_opt, e]
      simp only [Option.some.injEq, List.mem_cons, Prod.mk.injEq, List.not_mem_nil, or_false, true_and]
      constructor
      · rintro rfl; exact .inl rfl
      · rintro (rfl | ⟨h, -⟩)
        · rfl
        · exact absurd h (by decide +kernel)
    · rw [Switch, plain_flag, hn]; simp
    · unfold AtMostOne
      simp only [List.pairwise_cons, List.mem_cons, List.not_mem_nil, or_false, forall_eq_or_imp, forall_eq, false_imp_iff, implies_true,
        List.Pairwise.nil, and_true]
      rw [plain_given (n := "no-config".toList) (by simp only [List.map_cons, List.map_nil]; decide +kernel)]
      simp

/-- **C76.** Exactly what does not name a configuration while asking for none, nor an empty path, and whose values have a text can be asked for. -/
theorem command_line_expressible (uenv : UrlEnv) (lossy : Bytes → Text) (l : CommandLine) :
    (∃ args, CommandLine.parse uenv lossy args = some l) ↔
      l.config ≠ some [] ∧ (l.noConfig = true → l.config = none) ∧ Writable (cliReaders uenv lossy) l.command := by
  constructor
  · rintro ⟨args, h⟩
    obtain ⟨front, gs, name, decl, back, is, -, -, -, hg, -, -, -, hc⟩ := (command_line_iff uenv lossy args l).1 h
    have two : ∀ {is : List CliItem} {a b c : Text}, AtMostOne is [a, b, c] →
        ¬ (Given is a ∧ Given is b) ∧ ¬ (Given is a ∧ Given is c) ∧ ¬ (Given is b ∧ Given is c) := by
      intro is a b c h
      unfold AtMostOne at h
      simpa [List.pairwise_cons, and_assoc] using h
    have off : ∀ {is : List CliItem} {n m : Text} {b d : Bool}, Switch is n b → Switch is m d → ¬ (Given is n ∧ Given is m) → b = true → d = false := by
      intro is n m b d h1 h2 h3 hb
      cases d with
      | false => rfl
      | true => exact absurd ⟨.inl (h1.1 hb), .inl (h2.1 rfl)⟩ h3
    refine ⟨hg.notEmpty, ?_, ?_⟩
    · intro hn
      have h1 := hg.noConfig.1 hn
      cases e : l.config with
      | none => rfl
      | some p =>
        have h2 := (hg.config p).1 e
        have h3 := hg.conflict
        unfold AtMostOne at h3
        simp only [List.pairwise_cons, List.mem_cons, List.not_mem_nil, or_false, forall_eq] at h3
        exact absurd ⟨.inr ⟨p, h2⟩, .inl h1⟩ h3.1
    · generalize l.command = c at hc
      cases hc with
      | get h1 h2 h3 h4 => exact ⟨⟨_, h3⟩, _, h4⟩
      | batch h1 h2 h3 h4 =>
        refine ⟨⟨_, h3⟩, ?_⟩
        cases h4 with
        | stdin => simp
        | path h => simpa using h
      | queryTracker h1 h2 h3 h4 h5 h6 h7 h8 =>
        obtain ⟨a, b, c⟩ := two h8
        exact ⟨⟨_, h2⟩, ⟨_, h3⟩, fun h => ⟨off h5 h6 a h, off h5 h7 b h⟩, off h6 h7 c⟩
      | queryDht h1 h2 h3 => exact ⟨_, h2⟩
      | queryPeer h1 h2 h3 h4 h5 h6 h7 h8 h9 =>
        obtain ⟨a, b, c⟩ := two h9
        exact ⟨⟨_, h5⟩, ⟨_, h2⟩, ⟨_, h3⟩, fun h => ⟨off h6 h7 a h, off h6 h8 b h⟩, off h7 h8 c⟩
  · rintro ⟨h1, h2, h3⟩
    obtain ⟨gs, front, h4, h5, h6⟩ := globals_written l h1 h2
    obtain ⟨name, decl, is, back, h7, h8, h9, h10⟩ := command_written h3
    exact ⟨_, (command_line_spelled uenv lossy h4 h7 h8 l).2 ⟨h5, h6, h9, h10⟩⟩

/-- **C76.** The flags of `query-peer` select what they are named after, and no flag leaves it to the configuration. -/
theorem query_peer_given (uenv : UrlEnv) (lossy : Bytes → Text) {args : List Text} {l : CommandLine}
    (h : CommandLine.parse uenv lossy args = some l) {enc no pre : Bool} {t : List TemplateElement} {p : Peer} {ih : InfoHash}
    (hc : l.command = .queryPeer enc no pre t p ih) :
    (queryPeerMode enc pre no = some .encrypt ↔ enc = true) ∧ (queryPeerMode enc pre no = some .prefer ↔ pre = true) ∧
    (queryPeerMode enc pre no = some .plain ↔ no = true) ∧ (queryPeerMode enc pre no = none ↔ enc = false ∧ pre = false ∧ no = false) := by
  have hw := ((command_line_expressible uenv lossy l).1 ⟨args, h⟩).2.2
  rw [hc] at hw
  obtain ⟨-, -, -, h1, h2⟩ := hw
  revert h1 h2
  cases enc <;> cases no <;> cases pre <;> decide

/-- **C76.** The flags of `query-tracker` select what they are named after, and no flag leaves it to the configuration. -/
theorem query_tracker_given (uenv : UrlEnv) (lossy : Bytes → Text) {args : List Text} {l : CommandLine}
    (h : CommandLine.parse uenv lossy args = some l) {json no req sup : Bool} {t : Tracker} {ih : InfoHash}
    (hc : l.command = .queryTracker json no req sup t ih) :
    (trackerCryptoFlags req sup no = some .required ↔ req = true) ∧ (trackerCryptoFlags req sup no = some .supported ↔ sup = true) ∧
    (trackerCryptoFlags req sup no = some .plain ↔ no = true) ∧
    (trackerCryptoFlags req sup no = none ↔ req = false ∧ sup = false ∧ no = false) := by
  have hw := ((command_line_expressible uenv lossy l).1 ⟨args, h⟩).2.2
  rw [hc] at hw
  obtain ⟨-, -, h1, h2⟩ := hw
  revert h1 h2
  cases no <;> cases req <;> cases sup <;> decide

/-! ### Examples -/

/-- What an accepted command line says, for the examples. -/
def CommandLine.shape (l : CommandLine) : Option Text × LevelFilter × Bool × List Bool :=
  (l.config, l.logLevel, l.noConfig, match l.command with
    | .get _ _ => []
    | .batch _ _ => []
    | .queryTracker a b c d _ _ => [a, b, c, d]
    | .queryDht a _ => [a]
    | .queryPeer a b c _ _ _ => [a, b, c])

def sampleArgs (args : List String) : Option (Option Text × LevelFilter × Bool × List Bool) :=
  (CommandLine.parse ⟨false, fun _ => none, fun _ => none⟩ lossyUtf8 (args.map String.toList)).map CommandLine.shape

/-- Options in front of and between the words, short and long. -/
example : sampleArgs ["-ldebug", "--config", "-", "query-tracker", "udp://t.example:1/a", "-J", "--no-crypto", "28c55196f57753c40aceb6fb58617e6995a7eddb"] =
    some (some "-".toList, .debug, false, [true, true, false, false]) := by decide +kernel

/-- A value that begins with a hyphen needs an equals sign; after `--` there are only words. -/
example : sampleArgs ["-l=Trace", "--no-config", "query-peer", "-o=-x", "--prefer-encrypt", "--", "1.2.3.4:5", "28c55196f57753c40aceb6fb58617e6995a7eddb"] =
    some (none, .trace, true, [false, false, true]) := by decide +kernel

example : sampleArgs ["query-dht", "28c55196f57753c40aceb6fb58617e6995a7eddb", "--json"] = some (none, .info, false, [true]) := by decide +kernel

example : sampleArgs ["get", "-ofoo", "magnet:?xt=urn:btih:28c55196f57753c40aceb6fb58617e6995a7eddb"] = some (none, .info, false, []) := by decide +kernel

example : sampleArgs ["batch", "-"] = some (none, .info, false, []) := by decide +kernel

/-- Not accepted: options that exclude each other, repeated options, options in the wrong place, missing or spare words, unknown options. -/
example : ∀ args ∈ [["--no-config", "-c", "x", "batch", "f"], ["query-dht", "-J", "-J", "28c55196f57753c40aceb6fb58617e6995a7eddb"], ["batch", "f", "--log-level", "OFF"],
    ["query-dht"], ["query-dht", "28c55196f57753c40aceb6fb58617e6995a7eddb", "x"], ["query-dht", "--jso", "28c55196f57753c40aceb6fb58617e6995a7eddb"], ["batch", "-o", "-x", "f"], ["-c=", "batch", "f"],
    ["query-tracker", "--no-crypto", "--support-crypto", "udp://t.example:1/a", "28c55196f57753c40aceb6fb58617e6995a7eddb"], ["-l", "loud", "batch", "f"], ["batch", "-o", "{x}", "f"],
    ["--", "batch", "f"], ["query-dht", "--json=x", "28c55196f57753c40aceb6fb58617e6995a7eddb"], []],
    sampleArgs args = none := by decide +kernel

/-- Two ways to write the same. -/
example (uenv : UrlEnv) (lossy : Bytes → Text) :
    CommandLine.parse uenv lossy (["-l".toList, "off".toList] ++ "batch".toList :: ["-ox".toList, "f".toList]) =
      CommandLine.parse uenv lossy (["--log-level=off".toList] ++ "batch".toList :: ["f".toList, "--outfile".toList, "x".toList]) :=
  command_line_order (decl := [⟨"outfile".toList, 'o', true⟩]) (gs := [.opt "log-level".toList "off".toList])
    (is := [.opt "outfile".toList "x".toList, .word "f".toList]) (is' := [.word "f".toList, .opt "outfile".toList "x".toList]) uenv lossy
    (by decide +kernel) (.letterNext (cs := []) (names := []) .nil (by decide +kernel) ((isPlainArg_iff _).1 (by decide +kernel)) .nil)
    (.letterAttached (cs := []) (names := []) .nil (by decide +kernel) (by decide) (.word rfl ((isPlainArg_iff _).1 (by decide +kernel)) .nil))
    (.longEquals (s := some 'l') (by decide +kernel) .nil)
    (.word rfl ((isPlainArg_iff _).1 (by decide +kernel)) (.longNext (s := some 'o') (by decide +kernel) ((isPlainArg_iff _).1 (by decide +kernel)) .nil))
    (.refl _) (.swap _ _ _) (.opt (.word .nil)) (.word (.opt .nil))

end Demag.Props
