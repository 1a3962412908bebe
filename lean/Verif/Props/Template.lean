import Verif.Spec.Template
import Verif.Model.Template
import Verif.Props.Torrent

/-!
# C15: templates; C16: sanitized names; C17: where torrents are saved
-/

namespace Demag.Props

open Demag Spec

/-- The meaning of parsed elements. -/
def flat : List TemplateElement → List Tok
  | [] => []
  | .literal s :: es => s.map .ch ++ flat es
  | .name :: es => .name :: flat es
  | .hash :: es => .hash :: flat es

theorem flat_append (a b : List TemplateElement) : flat (a ++ b) = flat a ++ flat b := by
  induction a with
  | nil => rfl
  | cons e a ih => cases e <;> simp [flat, ih]

theorem flat_flush (es : List TemplateElement) (buf : Text) :
    flat (flushLiteral es buf) = flat es ++ (replaceClose buf).map .ch := by
  unfold flushLiteral
  cases buf with
  | nil => simp [replaceClose]
  | cons c b => simp [flat_append, flat]

theorem replaceClose_cons_ne (c : Char) (s : Text) (h : c ≠ '}') : replaceClose (c :: s) = c :: replaceClose s := by
  cases s with
  | nil => rfl
  | cons d r => simp [replaceClose, h]

theorem replaceClose_close1 (s : Text) (h : s.head? ≠ some '}') : replaceClose ('}' :: s) = '}' :: replaceClose s := by
  cases s with
  | nil => rfl
  | cons d r =>
    have : d ≠ '}' := by simpa using h
    simp [replaceClose, this]

/-- Literal text accumulated so far can be unescaped independently of what follows, as long as what follows begins
with a closing brace only if `s` does. -/
def Sep (buf s : Text) : Prop :=
  ∀ x : Text, (x.head? = some '}' → s.head? = some '}') → replaceClose (buf ++ x) = replaceClose buf ++ replaceClose x

theorem sep_nil (s : Text) : Sep [] s := fun _ _ => rfl

theorem sep_char (buf s s' : Text) (c : Char) (h1 : c ≠ '}') (h : Sep buf s) : Sep (buf ++ [c]) s' := by
  intro x _
  have e1 := h ([c] ++ x) (by simp [h1])
  have e2 := h [c] (by simp [h1])
  rw [List.append_assoc, e1, e2]
  simp [replaceClose_cons_ne _ _ h1, replaceClose]

theorem sep_close2 (buf s s' : Text) (h : Sep buf ('}' :: s)) : Sep (buf ++ ['}', '}']) s' := by
  intro x _
  have e1 := h (['}', '}'] ++ x) (by simp)
  have e2 := h ['}', '}'] (by simp)
  rw [List.append_assoc, e1, e2]
  simp [replaceClose]

theorem sep_close1 (buf s : Text) (h : Sep buf ('}' :: s)) (hs : s.head? ≠ some '}') : Sep (buf ++ ['}']) s := by
  intro x hx
  have hx' : x.head? ≠ some '}' := fun h => hs (hx h)
  have e1 := h (['}'] ++ x) (by simp)
  have e2 := h ['}'] (by simp)
  rw [List.append_assoc, e1, e2]
  simp [replaceClose_close1 _ hx', replaceClose]

/-- Where and why a template is malformed: the first part `p` reads, then comes an opening brace at byte index
`(utf8 p).length`, followed by field characters `f` and the rest. -/
inductive Bad : Text → PathTemplateError → Prop
  | unmatched (p f : Text) (ts : List Tok) (hp : Reads p ts) (hf : ∀ c ∈ f, isFieldChar c = true) :
      Bad (p ++ '{' :: f) (.unmatched (utf8 p).length)
  | invalid (p f : Text) (ts : List Tok) (d : Char) (r : Text) (hp : Reads p ts) (hf : ∀ c ∈ f, isFieldChar c = true)
      (hd : isFieldChar d = false) (h1 : d ≠ '}') (h2 : ¬ (f = [] ∧ d = '{')) :
      Bad (p ++ '{' :: f ++ d :: r) (.invalidField (utf8 p).length)
  | unknown (p f : Text) (ts : List Tok) (r : Text) (hp : Reads p ts) (hf : ∀ c ∈ f, isFieldChar c = true)
      (h1 : f ≠ ['n', 'a', 'm', 'e']) (h2 : f ≠ ['h', 'a', 's', 'h']) :
      Bad (p ++ '{' :: f ++ '}' :: r) (.unknownField f)

theorem utf8_append (a b : Text) : utf8 (a ++ b) = utf8 a ++ utf8 b := by
  unfold utf8; simp

theorem isFieldChar_lt {c : Char} (h : isFieldChar c = true) : c.toNat < 128 := by
  unfold isFieldChar at h
  simp only [Bool.or_eq_true, decide_eq_true_eq] at h
  rcases h with h | rfl
  · simp only [Char.isAlphanum, Char.isAlpha, Char.isUpper, Char.isLower, Char.isDigit, Bool.or_eq_true,
      Bool.and_eq_true, decide_eq_true_eq] at h
    simp only [UInt32.le_iff_toNat_le, ge_iff_le] at h
    show c.val.toNat < 128
    have e1 : ('A'.val.toNat) = 65 := rfl
    have e2 : ('Z'.val.toNat) = 90 := rfl
    have e3 : ('a'.val.toNat) = 97 := rfl
    have e4 : ('z'.val.toNat) = 122 := rfl
    have e5 : ('0'.val.toNat) = 48 := rfl
    have e6 : ('9'.val.toNat) = 57 := rfl
    omega
  · decide

theorem ascii_utf8_length (f : Text) (hf : ∀ c ∈ f, isFieldChar c = true) : (utf8 f).length = f.length := by
  induction f with
  | nil => rfl
  | cons c f ih =>
    have h1 := isFieldChar_lt (hf c (List.mem_cons_self ..))
    have h2 := ih fun x hx => hf x (List.mem_cons_of_mem _ hx)
    have h3 : (String.utf8EncodeChar c).length = 1 := by
      rw [String.length_utf8EncodeChar]
      unfold Char.utf8Size
      rw [if_pos]
      change c.val.toNat < 128 at h1
      rw [UInt32.le_iff_toNat_le]
      have : (UInt32.ofNatLT 127 (by decide)).toNat = 127 := rfl
      omega
    show (List.flatMap String.utf8EncodeChar (c :: f)).length = _
    rw [List.flatMap_cons, List.length_append, h3]
    show 1 + (utf8 f).length = _
    rw [h2, List.length_cons]; omega

/-- The part `p` read so far, as `ts`, can be continued by anything that begins with a closing brace only if `rest`
does. -/
def Cont (p : Text) (ts : List Tok) (rest : Text) : Prop :=
  ∀ s us, (s.head? = some '}' → rest.head? = some '}') → Reads s us → Reads (p ++ s) (ts ++ us)

theorem cont_step {p : Text} {ts : List Tok} {a : Text} {t : Tok} {r : Text}
    (h : Cont p ts (a ++ r)) (ha : a ≠ [])
    (step : ∀ s us, (s.head? = some '}' → r.head? = some '}') → Reads s us → Reads (a ++ s) (t :: us)) :
    Cont (p ++ a) (ts ++ [t]) r := by
  intro s us h1 h2
  have h3 := h (a ++ s) (t :: us) (by cases a with | nil => exact absurd rfl ha | cons x a => simp) (step s us h1 h2)
  simpa using h3

theorem cont_reads {p : Text} {ts : List Tok} {r : Text} (h : Cont p ts r) : Reads p ts := by
  have := h [] [] (by simp) .nil
  simpa using this

theorem pt_char (es : List TemplateElement) (buf : Text) (i : Nat) (c : Char) (cs : Text) (h : c ≠ '{') :
    parseTemplate es buf i (c :: cs) = parseTemplate es (buf ++ [c]) (i + (utf8 [c]).length) cs := by
  rw [parseTemplate, if_neg h]

theorem pt_unmatched (es : List TemplateElement) (buf : Text) (i : Nat) (cs : Text)
    (h : cs.dropWhile isFieldChar = []) : parseTemplate es buf i ('{' :: cs) = .error (.unmatched i) := by
  rw [parseTemplate, if_pos rfl]
  simp only
  split
  · rfl
  · rename_i h'; rw [h] at h'; cases h'

theorem pt_open (es : List TemplateElement) (buf : Text) (i : Nat) (cs : Text) (d : Char) (r : Text)
    (h : cs.dropWhile isFieldChar = d :: r) : parseTemplate es buf i ('{' :: cs) =
      if cs.takeWhile isFieldChar = [] ∧ d = '{' then parseTemplate es (buf ++ ['{']) (i + 2) r
      else if d = '}' then
        if cs.takeWhile isFieldChar = "name".toList then
          parseTemplate (flushLiteral es buf ++ [.name]) [] (i + 1 + (cs.takeWhile isFieldChar).length + 1) r
        else if cs.takeWhile isFieldChar = "hash".toList then
          parseTemplate (flushLiteral es buf ++ [.hash]) [] (i + 1 + (cs.takeWhile isFieldChar).length + 1) r
        else .error (.unknownField (cs.takeWhile isFieldChar))
      else .error (.invalidField i) := by
  rw [parseTemplate, if_pos rfl]
  simp only
  split
  · rename_i h'; rw [h] at h'; cases h'
  · rename_i h'; rw [h] at h'; cases h'; rfl

theorem parse_main (n : Nat) : ∀ (rest : Text), rest.length ≤ n → ∀ (es : List TemplateElement) (buf : Text) (i : Nat)
    (p : Text) (ts : List Tok), Cont p ts rest → Sep buf rest → flat es ++ (replaceClose buf).map .ch = ts →
    i = (utf8 p).length →
    match parseTemplate es buf i rest with
    | .ok es' => Reads (p ++ rest) (flat es')
    | .error e => Bad (p ++ rest) e := by
  induction n with
  | zero =>
    intro rest hlen es buf i p ts hc _ hf _
    have : rest = [] := List.length_eq_zero_iff.1 (by omega)
    subst this
    rw [parseTemplate]
    simp only [flat_flush, hf, List.append_nil]
    exact cont_reads hc
  | succ n ih =>
    intro rest hlen es buf i p ts hc hs hf hi
    match rest, hlen, hc, hs with
    | [], _, hc, _ =>
      rw [parseTemplate]
      simp only [flat_flush, hf, List.append_nil]
      exact cont_reads hc
    | c :: cs, hlen, hc, hs =>
      simp only [List.length_cons] at hlen
      by_cases h1 : c = '{'
      · subst h1
        have hsplit := (List.takeWhile_append_dropWhile (p := isFieldChar) (l := cs)).symm
        have hfield : ∀ c ∈ cs.takeWhile isFieldChar, isFieldChar c = true := fun c hc => mem_takeWhile_pos hc
        generalize hfe : cs.takeWhile isFieldChar = f at *
        cases hd : cs.dropWhile isFieldChar with
        | nil =>
          rw [pt_unmatched _ _ _ _ hd]
          rw [hd, List.append_nil] at hsplit
          subst hsplit
          rw [hi]
          exact .unmatched p cs ts (cont_reads hc) hfield
        | cons d r =>
          rw [pt_open _ _ _ _ _ _ hd, hfe]
          have hdf : isFieldChar d = false := by
            have := List.head?_dropWhile_not isFieldChar cs
            rw [hd] at this
            simpa using this
          rw [hd] at hsplit
          subst hsplit
          by_cases hopen : f = [] ∧ d = '{'
          · rw [if_pos hopen]
            obtain ⟨rfl, rfl⟩ := hopen
            have := ih r (by simp at hlen; omega) es (buf ++ ['{']) (i + 2) (p ++ ['{', '{']) (ts ++ [.ch '{'])
              (cont_step (a := ['{', '{']) (t := .ch '{') hc (by simp) fun s us _ h => .open2 h)
              (sep_char _ _ _ _ (by decide) hs)
              (by
                rw [hs ['{'] (by simp), ← hf]
                simp [replaceClose])
              (by rw [utf8_append, List.length_append, hi]; rfl)
            simpa using this
          · rw [if_neg hopen]
            by_cases hclose : d = '}'
            · subst hclose
              rw [if_pos rfl]
              have hpos : ∀ k, (utf8 (p ++ '{' :: f ++ ['}'])).length = k → i + 1 + f.length + 1 = k := by
                intro k hk
                rw [← hk, utf8_append, utf8_append, List.length_append, List.length_append, ← hi]
                have : utf8 ('{' :: f) = utf8 ['{'] ++ utf8 f := utf8_append ['{'] f
                rw [this, List.length_append, ascii_utf8_length f hfield]
                have e1 : (utf8 ['{']).length = 1 := by decide
                have e2 : (utf8 ['}']).length = 1 := by decide
                omega
              have hlen' : r.length ≤ n := by simp at hlen; omega
              by_cases hname : f = "name".toList
              · rw [if_pos hname]
                subst hname
                have := ih r hlen' (flushLiteral es buf ++ [.name]) [] _ (p ++ ['{', 'n', 'a', 'm', 'e', '}'])
                  (ts ++ [.name])
                  (cont_step (t := .name) (a := ['{', 'n', 'a', 'm', 'e', '}']) hc (by simp) fun s us _ h => .name h)
                  (sep_nil _)
                  (by rw [flat_append, flat_flush, hf]; simp [flat, replaceClose])
                  (hpos _ (by simp))
                simpa using this
              · rw [if_neg hname]
                by_cases hhash : f = "hash".toList
                · rw [if_pos hhash]
                  subst hhash
                  have := ih r hlen' (flushLiteral es buf ++ [.hash]) [] _ (p ++ ['{', 'h', 'a', 's', 'h', '}'])
                    (ts ++ [.hash])
                    (cont_step (t := .hash) (a := ['{', 'h', 'a', 's', 'h', '}']) hc (by simp) fun s us _ h => .hash h)
                    (sep_nil _)
                    (by rw [flat_append, flat_flush, hf]; simp [flat, replaceClose])
                    (hpos _ (by simp))
                  simpa using this
                · rw [if_neg hhash]
                  have := Bad.unknown p f ts r (cont_reads hc) hfield hname hhash
                  simpa using this
            · rw [if_neg hclose, hi]
              have := Bad.invalid p f ts d r (cont_reads hc) hfield hdf hclose hopen
              simpa using this
      · rw [pt_char _ _ _ _ _ h1]
        by_cases h2 : c = '}'
        · subst h2
          by_cases h3 : cs.head? = some '}'
          · obtain ⟨r, rfl⟩ : ∃ r, cs = '}' :: r := by
              cases cs with
              | nil => cases h3
              | cons a b => simp at h3; exact ⟨b, by rw [h3]⟩
            rw [pt_char _ _ _ _ _ h1, List.append_assoc]
            have := ih r (by simp at hlen; omega) es (buf ++ ['}', '}']) (i + (utf8 ['}']).length + (utf8 ['}']).length)
              (p ++ ['}', '}']) (ts ++ [.ch '}'])
              (cont_step (a := ['}', '}']) (t := .ch '}') hc (by simp) fun s us _ h => .close2 h)
              (sep_close2 _ _ _ hs)
              (by
                rw [hs ['}', '}'] (by simp), ← hf]
                simp [replaceClose])
              (by rw [utf8_append, List.length_append, hi]; rfl)
            simpa using this
          · have := ih cs (by omega) es (buf ++ ['}']) (i + (utf8 ['}']).length)
              (p ++ ['}']) (ts ++ [.ch '}'])
              (cont_step (a := ['}']) (t := .ch '}') hc (by simp) fun s us hx h => .close1 (fun hh => h3 (hx hh)) h)
              (sep_close1 _ _ hs h3)
              (by
                rw [hs ['}'] (by simp), ← hf]
                simp [replaceClose])
              (by rw [utf8_append, List.length_append, hi])
            simpa using this
        · have := ih cs (by omega) es (buf ++ [c]) (i + (utf8 [c]).length)
            (p ++ [c]) (ts ++ [.ch c])
            (cont_step (a := [c]) (t := .ch c) hc (by simp) fun s us _ h => .char c h1 h2 h)
            (sep_char _ _ _ _ h2 hs)
            (by
              rw [hs [c] (by simp [h2]), ← hf]
              simp [replaceClose])
            (by rw [utf8_append, List.length_append, hi])
          simpa using this

/-- Outcome of parsing a template. -/
theorem parse_outcome (s : Text) :
    match PathTemplate.fromStr s with
    | .ok es => Reads s (flat es)
    | .error e => Bad s e := by
  have := parse_main s.length s (Nat.le_refl _) [] [] 0 [] [] (fun s us _ h => h) (sep_nil _) rfl rfl
  simpa [PathTemplate.fromStr] using this

/-- What follows a readable beginning is read on its own. -/
theorem reads_rest {p : Text} {ts : List Tok} (hp : Reads p ts) {x : Text} {us : List Tok}
    (h : Reads (p ++ '{' :: x) us) : ∃ vs, Reads ('{' :: x) vs ∧ us = ts ++ vs := by
  induction hp generalizing us with
  | nil => exact ⟨us, h, rfl⟩
  | @char c h1 h2 s _ _ ih =>
    rw [List.cons_append] at h
    generalize hz : s ++ '{' :: x = z at h ih
    cases h with
    | char _ _ _ h => obtain ⟨vs, hv, rfl⟩ := ih h; exact ⟨vs, hv, rfl⟩
    | open2 _ => exact absurd rfl h1
    | close2 _ => exact absurd rfl h2
    | close1 _ _ => exact absurd rfl h2
    | name _ => exact absurd rfl h1
    | hash _ => exact absurd rfl h1
  | open2 _ ih =>
    cases h with
    | char _ h1 _ _ => exact absurd rfl h1
    | open2 h => obtain ⟨vs, hv, rfl⟩ := ih h; exact ⟨vs, hv, rfl⟩
  | close2 _ ih =>
    cases h with
    | char _ _ h2 _ => exact absurd rfl h2
    | close2 h => obtain ⟨vs, hv, rfl⟩ := ih h; exact ⟨vs, hv, rfl⟩
    | close1 h' _ => simp at h'
  | @close1 s _ h' _ ih =>
    rw [List.cons_append] at h
    generalize hz : s ++ '{' :: x = z at h ih
    cases h with
    | char _ _ h2 _ => exact absurd rfl h2
    | close2 h =>
      cases s with
      | nil => simp at hz
      | cons a b => simp at hz h'; exact absurd hz.1 h'
    | close1 _ h => obtain ⟨vs, hv, rfl⟩ := ih h; exact ⟨vs, hv, rfl⟩
  | name _ ih =>
    cases h with
    | char _ h1 _ _ => exact absurd rfl h1
    | name h => obtain ⟨vs, hv, rfl⟩ := ih h; exact ⟨vs, hv, rfl⟩
  | hash _ ih =>
    cases h with
    | char _ h1 _ _ => exact absurd rfl h1
    | hash h => obtain ⟨vs, hv, rfl⟩ := ih h; exact ⟨vs, hv, rfl⟩

theorem field_split {f g a b : Text} {c d : Char} (hf : ∀ c ∈ f, isFieldChar c = true)
    (hg : ∀ c ∈ g, isFieldChar c = true) (hc : isFieldChar c = false) (hd : isFieldChar d = false)
    (h : f ++ c :: a = g ++ d :: b) : f = g ∧ c = d ∧ a = b := by
  induction f generalizing g with
  | nil =>
    cases g with
    | nil => simp at h; exact ⟨rfl, h.1, h.2⟩
    | cons y g => simp at h; rw [h.1, hg y (List.mem_cons_self ..)] at hc; cases hc
  | cons x f ih =>
    cases g with
    | nil => simp at h; rw [← h.1, hf x (List.mem_cons_self ..)] at hd; cases hd
    | cons y g =>
      simp at h
      obtain ⟨rfl, h⟩ := h
      obtain ⟨rfl, h2⟩ := ih (fun z hz => hf z (List.mem_cons_of_mem _ hz)) (fun z hz => hg z (List.mem_cons_of_mem _ hz)) h
      exact ⟨rfl, h2⟩

theorem nameField : ∀ c ∈ ['n', 'a', 'm', 'e'], isFieldChar c = true := by decide
theorem hashField : ∀ c ∈ ['h', 'a', 's', 'h'], isFieldChar c = true := by decide

/-- A brace that can be read. -/
theorem reads_brace {x : Text} {us : List Tok} (h : Reads ('{' :: x) us) :
    (∃ r, x = '{' :: r) ∨ (∃ r, x = ['n', 'a', 'm', 'e'] ++ '}' :: r) ∨ (∃ r, x = ['h', 'a', 's', 'h'] ++ '}' :: r) := by
  generalize hz : '{' :: x = z at h
  cases h with
  | nil => cases hz
  | char c h1 => cases hz; exact absurd rfl h1
  | open2 _ => cases hz; exact .inl ⟨_, rfl⟩
  | close2 _ => cases hz
  | close1 _ _ => cases hz
  | name _ => cases hz; exact .inr (.inl ⟨_, rfl⟩)
  | hash _ => cases hz; exact .inr (.inr ⟨_, rfl⟩)

/-- A malformed template has no reading. -/
theorem bad_not_reads {s : Text} {e : PathTemplateError} (hb : Bad s e) {ts : List Tok} : ¬ Reads s ts := by
  have nf : isFieldChar '{' = false := by decide
  have nc : isFieldChar '}' = false := by decide
  intro h
  cases hb with
  | unmatched p f ts' hp hf =>
    obtain ⟨vs, hv, -⟩ := reads_rest hp h
    rcases reads_brace hv with ⟨r, hr⟩ | ⟨r, hr⟩ | ⟨r, hr⟩
    · rw [hr] at hf; have := hf '{' (by simp); rw [nf] at this; cases this
    · rw [hr] at hf; have := hf '}' (by simp); rw [nc] at this; cases this
    · rw [hr] at hf; have := hf '}' (by simp); rw [nc] at this; cases this
  | invalid p f ts' d r hp hf hd h1 h2 =>
    rw [List.append_assoc, List.cons_append] at h
    obtain ⟨vs, hv, -⟩ := reads_rest hp h
    rcases reads_brace hv with ⟨r', hr⟩ | ⟨r', hr⟩ | ⟨r', hr⟩
    · have := field_split (g := []) hf (by simp) hd nf hr
      exact h2 ⟨this.1, this.2.1⟩
    · exact h1 (field_split hf nameField hd nc hr).2.1
    · exact h1 (field_split hf hashField hd nc hr).2.1
  | unknown p f ts' r hp hf h1 h2 =>
    rw [List.append_assoc, List.cons_append] at h
    obtain ⟨vs, hv, -⟩ := reads_rest hp h
    rcases reads_brace hv with ⟨r', hr⟩ | ⟨r', hr⟩ | ⟨r', hr⟩
    · have := field_split (g := []) hf (by simp) nc nf hr
      exact absurd this.2.1 (by decide)
    · exact h1 (field_split hf nameField nc nc hr).1
    · exact h2 (field_split hf hashField nc nc hr).1

/-- A template has at most one meaning. -/
theorem reads_unique {s : Text} {ts us : List Tok} (h : Reads s ts) (h' : Reads s us) : ts = us := by
  induction h generalizing us with
  | nil => cases h'; rfl
  | char c h1 h2 _ ih =>
    cases h' with
    | char _ _ _ h => rw [ih h]
    | open2 _ => exact absurd rfl h1
    | close2 _ => exact absurd rfl h2
    | close1 _ _ => exact absurd rfl h2
    | name _ => exact absurd rfl h1
    | hash _ => exact absurd rfl h1
  | open2 _ ih =>
    cases h' with
    | char _ h1 _ _ => exact absurd rfl h1
    | open2 h => rw [ih h]
  | close2 _ ih =>
    cases h' with
    | char _ _ h2 _ => exact absurd rfl h2
    | close2 h => rw [ih h]
    | close1 h' _ => simp at h'
  | close1 h1 _ ih =>
    cases h' with
    | char _ _ h2 _ => exact absurd rfl h2
    | close2 h => simp at h1
    | close1 _ h => rw [ih h]
  | name _ ih =>
    cases h' with
    | char _ h1 _ _ => exact absurd rfl h1
    | name h => rw [ih h]
  | hash _ ih =>
    cases h' with
    | char _ h1 _ _ => exact absurd rfl h1
    | hash h => rw [ih h]

/-- **C15.** For every text: it is accepted as a template with meaning `ts` exactly if it reads as `ts`. -/
theorem template_accepts_iff (s : Text) (ts : List Tok) :
    (∃ es, PathTemplate.fromStr s = .ok es ∧ flat es = ts) ↔ Reads s ts := by
  have ho := parse_outcome s
  constructor
  · rintro ⟨es, he, rfl⟩
    rw [he] at ho; exact ho
  · intro h
    cases hp : PathTemplate.fromStr s with
    | ok es =>
      rw [hp] at ho
      exact ⟨es, rfl, reads_unique ho h⟩
    | error e =>
      rw [hp] at ho
      exact absurd h (bad_not_reads ho)

/-- **C15.** Otherwise the error tells the first opening brace that cannot be read: its byte index, or the unknown
field's name. -/
theorem template_error (s : Text) (e : PathTemplateError) (h : PathTemplate.fromStr s = .error e) : Bad s e := by
  have ho := parse_outcome s
  rw [h] at ho; exact ho

/-- **C15.** Formatting yields the text of the template's meaning. -/
theorem format_spec (s : Text) (es : List TemplateElement) (name : Text) (h : InfoHash) (ts : List Tok)
    (hs : PathTemplate.fromStr s = .ok es) (hr : Reads s ts) :
    PathTemplate.format es name h = render name h.displayText ts := by
  have hts : flat es = ts := reads_unique ((template_accepts_iff s (flat es)).1 ⟨es, hs, rfl⟩) hr
  rw [← hts]
  have aux : ∀ (es : List TemplateElement) (b : Text),
      es.foldl (fun buf elem => match elem with
        | .literal s => buf ++ s
        | .name => buf ++ name
        | .hash => buf ++ h.displayText) b = b ++ render name h.displayText (flat es) := by
    intro es
    induction es with
    | nil => intro b; simp [flat, render]
    | cons e es ih =>
      intro b
      cases e with
      | literal s =>
        have : ∀ (s : Text) (ts : List Tok), render name h.displayText (s.map .ch ++ ts) = s ++ render name h.displayText ts := by
          intro s ts
          induction s with
          | nil => rfl
          | cons c s ih => simp [render, ih]
        simp [ih, flat, this]
      | name => simp [ih, flat, render]
      | hash => simp [ih, flat, render]
  exact aux es []

/-- **C15.** Every sequence of characters, names and hashes has a template: doubling braces escapes them. -/
theorem escape_reads (ts : List Tok) : Reads (escape ts) ts := by
  induction ts with
  | nil => exact .nil
  | cons t ts ih =>
    cases t with
    | ch c =>
      unfold escape
      by_cases h1 : c = '{'
      · subst h1; exact .open2 ih
      · by_cases h2 : c = '}'
        · subst h2; simp only [h1, if_false, if_true]; exact .close2 ih
        · simp only [h1, h2, if_false]; exact .char c h1 h2 ih
    | name => exact .name ih
    | hash => exact .hash ih

example : Reads "{name}.torrent".toList (.name :: ".torrent".toList.map .ch) := by
  show Reads ('{' :: 'n' :: 'a' :: 'm' :: 'e' :: '}' :: ".torrent".toList) _
  refine .name ?_
  repeat (first | exact .nil | refine .char _ (by decide) (by decide) ?_)

/-! ### Sanitized names -/

/-- Characters that must not appear in a file name. -/
def Forbidden (c : Char) : Prop := c.toNat < 32 ∨ c ∈ "/\\<>:|\"?*".toList

theorem lt_space_iff (c : Char) : c < ' ' ↔ c.toNat < 32 := by
  show c.val < ' '.val ↔ _
  rw [UInt32.lt_iff_toNat_lt]; rfl

theorem forbidden_iff (c : Char) :
    (c < ' ' ∨ c ∈ ['/', '\\', '<', '>', ':', '|', '"', '?', '*']) ↔ Forbidden c := by
  unfold Forbidden; rw [lt_space_iff]; exact Iff.rfl

/-- **C16.** Sanitizing replaces exactly the forbidden characters, each by an underscore. -/
theorem sanitize_spec (s : Text) :
    (sanitize s).length = s.length ∧
    ∀ i, (h : i < s.length) →
      (Forbidden (s[i]) → (sanitize s)[i]? = some '_') ∧ (¬ Forbidden (s[i]) → (sanitize s)[i]? = some (s[i])) := by
  refine ⟨by simp [sanitize], fun i h => ?_⟩
  constructor
  · intro hf
    rw [← forbidden_iff] at hf
    simp only [sanitize, List.getElem?_map, List.getElem?_eq_getElem h, Option.map_some, if_pos hf]
  · intro hf
    rw [← forbidden_iff] at hf
    simp only [sanitize, List.getElem?_map, List.getElem?_eq_getElem h, Option.map_some, if_neg hf]

/-- **C16.** No forbidden character remains. -/
theorem sanitize_clean (s : Text) : ∀ c ∈ sanitize s, ¬ Forbidden c := by
  intro c hc
  unfold sanitize at hc
  obtain ⟨x, -, rfl⟩ := List.mem_map.1 hc
  split
  · rw [← forbidden_iff]; decide
  · rename_i h; rwa [← forbidden_iff]

/-- **C16.** Sanitizing twice changes nothing more, and clean names are left alone. -/
theorem sanitize_idem (s : Text) : (∀ c ∈ s, ¬ Forbidden c) → sanitize s = s := by
  intro h
  unfold sanitize
  conv => rhs; rw [← List.map_id s]
  apply List.map_congr_left
  intro c hc
  rw [if_neg]
  · rfl
  · rw [forbidden_iff]; exact h c hc

example : sanitize "a/../b:c".toList = "a_.._b_c".toList := by decide +kernel

/-! ### Where a torrent is saved -/

theorem components_append (a b : Text) (h : ∀ c ∈ a, c ≠ '/') :
    components (a ++ b) = match components b with | [] => [a] | p :: ps => (a ++ p) :: ps := by
  induction a with
  | nil => cases hc : components b with
    | nil => exact absurd hc (by cases b with | nil => simp [components] | cons c b => simp only [components]; split; simp; split <;> simp)
    | cons p ps => simp [hc]
  | cons c a ih =>
    have h1 := h c (List.mem_cons_self ..)
    rw [List.cons_append, components, if_neg h1, ih fun x hx => h x (List.mem_cons_of_mem _ hx)]
    cases components b <;> rfl

theorem components_ne_nil (b : Text) : components b ≠ [] := by
  cases b with
  | nil => simp [components]
  | cons c b => simp only [components]; split; simp; split <;> simp

/-- **C17.** The path's components are the template's components with the name and the hash filled in: a name without
slash cannot add, remove or split a component. -/
theorem components_spec (name hash : Text) (hn : ∀ c ∈ name, c ≠ '/') (hh : ∀ c ∈ hash, c ≠ '/') (ts : List Tok) :
    components (render name hash ts) = (tokComponents ts).map (render name hash) := by
  induction ts with
  | nil => rfl
  | cons t ts ih =>
    have hne := components_ne_nil (render name hash ts)
    cases t with
    | ch c =>
      simp only [render, components, tokComponents, ih]
      by_cases hc : c = '/'
      · subst hc; simp [render]
      · rw [if_neg hc, if_neg (by simp [hc])]
        cases htc : tokComponents ts with
        | nil => simp [render]
        | cons p ps => simp [render]
    | name =>
      simp only [render]
      rw [components_append _ _ hn, ih]
      simp only [tokComponents, reduceCtorEq, if_false]
      cases htc : tokComponents ts with
      | nil => simp [render]
      | cons p ps => simp [render]
    | hash =>
      simp only [render]
      rw [components_append _ _ hh, ih]
      simp only [tokComponents, reduceCtorEq, if_false]
      cases htc : tokComponents ts with
      | nil => simp [render]
      | cons p ps => simp [render]

theorem hexNibble_char (n : Nat) (h : n < 16) :
    Char.ofNat (hexNibble n).toNat ≠ '/' ∧ Char.ofNat (hexNibble n).toNat ≠ '.' ∧ Char.ofNat (hexNibble n).toNat ≠ '-' := by
  have : ∀ i : Fin 16, Char.ofNat (hexNibble i).toNat ≠ '/' ∧ Char.ofNat (hexNibble i).toNat ≠ '.' ∧
      Char.ofNat (hexNibble i).toNat ≠ '-' := by decide
  exact this ⟨n, h⟩

theorem displayText_chars (h : InfoHash) : ∀ c ∈ h.displayText, c ≠ '/' ∧ c ≠ '.' ∧ c ≠ '-' := by
  intro c hc
  obtain ⟨b, hb, rfl⟩ := List.mem_map.1 hc
  obtain ⟨x, -, hx⟩ := List.mem_flatMap.1 hb
  have hlt := UInt8.toNat_lt x
  simp only [List.mem_cons, List.not_mem_nil, or_false] at hx
  rcases hx with rfl | rfl
  · exact hexNibble_char _ (by omega)
  · exact hexNibble_char _ (Nat.mod_lt _ (by decide))

theorem sanitize_noslash (s : Text) : ∀ c ∈ sanitize s, c ≠ '/' := by
  intro c hc h
  subst h
  exact sanitize_clean s _ hc (by right; decide)

/-- **C17.** The components of the path a torrent is saved to are those of the template with the (sanitized) name and
the hash filled in, whatever name the torrent has. -/
theorem save_components (s : Text) (ts : List Tok) (hr : Reads s ts) (es : List TemplateElement)
    (hs : PathTemplate.fromStr s = .ok es) (rawName : Text) (h : InfoHash) :
    components (PathTemplate.format es (sanitize rawName) h) =
      (tokComponents ts).map (render (sanitize rawName) h.displayText) := by
  rw [format_spec s es _ h ts hs hr]
  exact components_spec _ _ (sanitize_noslash rawName) (fun c hc => (displayText_chars h c hc).1) ts

theorem mem_render_ch (name hash : Text) (c : Char) (ts : List Tok) (h : Tok.ch c ∈ ts) : c ∈ render name hash ts := by
  induction ts with
  | nil => cases h
  | cons t ts ih =>
    rcases List.mem_cons.1 h with rfl | h'
    · simp [render]
    · cases t <;> simp [render, ih h']

theorem mem_render_hash (name : Text) (h : InfoHash) (ts : List Tok) (hm : Tok.hash ∈ ts) :
    ∃ c ∈ render name h.displayText ts, c ≠ '.' ∧ c ≠ '-' := by
  induction ts with
  | nil => cases hm
  | cons t ts ih =>
    rcases List.mem_cons.1 hm with rfl | hm
    · have hne : h.displayText ≠ [] := by
        obtain ⟨bs, hbs⟩ := h
        cases bs with
        | nil => simp at hbs
        | cons b bs => simp [InfoHash.displayText, InfoHash.display]
      cases hd : h.displayText with
      | nil => exact absurd hd hne
      | cons c cs =>
        refine ⟨c, by simp [render], ?_⟩
        have := displayText_chars h c (by rw [hd]; exact List.mem_cons_self ..)
        exact ⟨this.2.1, this.2.2⟩
    · obtain ⟨c, hc, h2⟩ := ih hm
      cases t <;> exact ⟨c, by simp [render, hc], h2⟩

/-- The template fixes at least one character of the component that is not a dot, or the component holds the hash. -/
def Anchored (comp : List Tok) : Prop := .hash ∈ comp ∨ ∃ c, .ch c ∈ comp ∧ c ≠ '.' ∧ c ≠ '-'

/-- **C17 (part).** A component in which the template itself fixes a character other than `.` and `-` (as in the
default `{name}.torrent`), or which holds the hash, is never empty, `.`, `..` or `-`, whatever the torrent's name.
Missing: components consisting of the name alone, for which the claim is false (`save_dotdot`, `save_stdout`). -/
theorem save_component_partial (comp : List Tok) (hc : Anchored comp) (name : Text) (h : InfoHash) :
    render name h.displayText comp ≠ [] ∧ render name h.displayText comp ≠ ['.'] ∧
    render name h.displayText comp ≠ ['.', '.'] ∧ render name h.displayText comp ≠ ['-'] := by
  obtain ⟨c, hm, h1, h2⟩ : ∃ c ∈ render name h.displayText comp, c ≠ '.' ∧ c ≠ '-' := by
    rcases hc with hc | ⟨c, hc, h1, h2⟩
    · exact mem_render_hash name h comp hc
    · exact ⟨c, mem_render_ch _ _ c comp hc, h1, h2⟩
  refine ⟨?_, ?_, ?_, ?_⟩ <;> intro he <;> rw [he] at hm <;> simp at hm <;> first | exact h1 hm | exact h2 hm

theorem render_own (name hash : Text) (comp : List Tok) : (ownChars comp).Sublist (render name hash comp) := by
  induction comp with
  | nil => exact .slnil
  | cons t ts ih =>
    cases t with
    | ch c => exact ih.cons₂ c
    | name => exact ih.trans (List.sublist_append_right _ _)
    | hash => exact ih.trans (List.sublist_append_right _ _)

theorem render_empty (hash : Text) (comp : List Tok) (h : .hash ∉ comp) : render [] hash comp = ownChars comp := by
  induction comp with
  | nil => rfl
  | cons t ts ih =>
    have := ih (fun hm => h (by simp [hm]))
    cases t with
    | ch c => exact congrArg _ this
    | name => exact this
    | hash => exact absurd (by simp) h

/-- **C17 (exactly which templates are affected).** Some torrent name turns a component of the path into nothing, `.`, `..` or `-`
exactly if the component has no hash and its own characters are nothing, `.`, `..` or `-`. -/
theorem save_component_iff (comp : List Tok) (h : InfoHash) :
    (∃ rawName, render (sanitize rawName) h.displayText comp ∈ specialNames) ↔ .hash ∉ comp ∧ ownChars comp ∈ specialNames := by
  constructor
  · rintro ⟨rawName, hm⟩
    refine ⟨fun hh => ?_, ?_⟩
    · obtain ⟨h1, h2, h3, h4⟩ := save_component_partial comp (.inl hh) (sanitize rawName) h
      simp only [specialNames, List.mem_cons, List.not_mem_nil, or_false] at hm
      rcases hm with e | e | e | e
      · exact h1 e
      · exact h2 e
      · exact h3 e
      · exact h4 e
    · have hs := render_own (sanitize rawName) h.displayText comp
      generalize ownChars comp = l at hs
      generalize render (sanitize rawName) h.displayText comp = r at hs hm
      have two : ∀ (a b : Char) (l : Text), l.Sublist [a, b] → l = [] ∨ l = [a] ∨ l = [b] ∨ l = [a, b] := by
        intro a b l hs
        rw [List.sublist_cons_iff, List.sublist_cons_iff, List.sublist_nil] at hs
        rcases hs with (rfl | ⟨r, rfl, hr⟩) | ⟨r, rfl, hr⟩
        · exact .inl rfl
        · rw [List.sublist_nil.1 hr]; simp
        · rw [List.sublist_cons_iff, List.sublist_nil] at hr
          rcases hr with rfl | ⟨r', rfl, hr'⟩
          · simp
          · rw [List.sublist_nil.1 hr']; simp
      have one : ∀ (a : Char) (l : Text), l.Sublist [a] → l = [] ∨ l = [a] := by
        intro a l hs
        rw [List.sublist_cons_iff, List.sublist_nil] at hs
        rcases hs with rfl | ⟨r, rfl, hr⟩
        · exact .inl rfl
        · rw [List.sublist_nil.1 hr]; simp
      simp only [specialNames, List.mem_cons, List.not_mem_nil, or_false] at hm ⊢
      rcases hm with rfl | rfl | rfl | rfl
      · exact .inl (List.sublist_nil.1 hs)
      · rcases one _ _ hs with e | e <;> simp [e]
      · rcases two _ _ _ hs with e | e | e | e <;> simp [e]
      · rcases one _ _ hs with e | e <;> simp [e]
  · rintro ⟨h1, h2⟩
    refine ⟨[], ?_⟩
    rw [show sanitize [] = [] by rfl, render_empty _ _ h1]
    exact h2

/-- The default template. -/
def defaultTemplate : Text := "{name}.torrent".toList

theorem default_reads : Reads defaultTemplate (.name :: ".torrent".toList.map .ch) := by
  show Reads ('{' :: 'n' :: 'a' :: 'm' :: 'e' :: '}' :: ".torrent".toList) _
  refine .name ?_
  repeat (first | exact .nil | refine .char _ (by decide) (by decide) ?_)

/-- **C17.** With the default template a torrent goes to one file in the current directory, named after the torrent,
for every name. -/
theorem default_save (es : List TemplateElement) (hs : PathTemplate.fromStr defaultTemplate = .ok es) (rawName : Text)
    (h : InfoHash) :
    Output.fromArg (PathTemplate.format es (sanitize rawName) h) = .file (sanitize rawName ++ ".torrent".toList) ∧
    components (sanitize rawName ++ ".torrent".toList) = [sanitize rawName ++ ".torrent".toList] := by
  have hf : PathTemplate.format es (sanitize rawName) h = sanitize rawName ++ ".torrent".toList := by
    rw [format_spec _ es _ h _ hs default_reads]; rfl
  have hcomp := save_components _ _ default_reads es hs rawName h
  rw [hf] at hcomp
  refine ⟨?_, hcomp⟩
  rw [hf, Output.fromArg, if_neg]
  intro he
  have := congrArg List.length he
  rw [List.length_append] at this
  have e : (".torrent".toList).length = 8 := rfl
  simp only [List.length_cons, List.length_nil] at this
  omega

example : ∃ es, PathTemplate.fromStr defaultTemplate = .ok es ∧ flat es = .name :: ".torrent".toList.map .ch :=
  (template_accepts_iff _ _).2 default_reads

/-- C17 is false for templates with a component consisting of the name alone: the template `{name}/x` and a torrent
named `..` lead out of the directory. -/
theorem save_dotdot (h : InfoHash) : ∃ (s : Text) (es : List TemplateElement) (rawName : Text),
    PathTemplate.fromStr s = .ok es ∧ components (PathTemplate.format es (sanitize rawName) h) = [['.', '.'], ['x']] := by
  have hr : Reads "{name}/x".toList [.name, .ch '/', .ch 'x'] :=
    .name (.char _ (by decide) (by decide) (.char _ (by decide) (by decide) .nil))
  obtain ⟨es, h1, -⟩ := (template_accepts_iff _ _).2 hr
  refine ⟨_, es, ['.', '.'], h1, ?_⟩
  rw [save_components _ _ hr es h1]
  rfl

/-- The template `{name}` and a torrent named `-` turn the output into standard output. -/
theorem save_stdout (h : InfoHash) : ∃ (s : Text) (es : List TemplateElement) (rawName : Text),
    PathTemplate.fromStr s = .ok es ∧ Output.fromArg (PathTemplate.format es (sanitize rawName) h) = .stdout := by
  have hr : Reads "{name}".toList [.name] := .name .nil
  obtain ⟨es, h1, -⟩ := (template_accepts_iff _ _).2 hr
  refine ⟨_, es, ['-'], h1, ?_⟩
  rw [format_spec _ es _ h _ h1 hr]
  rfl

/-- **C13, C17.** Saving metadata that was checked never panics; it writes exactly the torrent file, once, to the path
of the template, after creating its parent directory if it has one. -/
theorem save_spec (lossy : Bytes → Text) (ipText : IpAddr → Text) (parent : Text → Option Text) (t : TorrentFile)
    (hi : IsInfoDict t.info.data) (es : List TemplateElement) :
    ∃ name : Text, (∃ kvs, t.info.data = benc (.dict kvs) ∧ Canonical (.dict kvs) ∧
        name = ((NameOf kvs).map lossy).getD "NONAME".toList) ∧
      t.save lossy ipText parent es =
        match Output.fromArg (PathTemplate.format es (sanitize name) t.info.infoHash) with
        | .stdout => some [.write .stdout (t.toBytes ipText)]
        | .file p =>
          match parent p with
          | some (c :: dir) => some [.createDirAll (c :: dir), .write (.file p) (t.toBytes ipText)]
          | _ => some [.write (.file p) (t.toBytes ipText)] := by
  obtain ⟨kvs, hk, hc, hd⟩ := hi
  refine ⟨((NameOf kvs).map lossy).getD "NONAME".toList, ⟨kvs, hk, hc, rfl⟩, ?_⟩
  have hn : t.info.name lossy = some ((NameOf kvs).map lossy) := by
    have := name_spec lossy t.info.infoHash kvs hc hd
    rw [← hk] at this
    exact this
  unfold TorrentFile.save
  rw [hn]
  simp only [Option.map_some]
  cases Output.fromArg _ with
  | stdout => rfl
  | file p =>
    simp only
    cases parent p with
    | none => rfl
    | some dir => cases dir <;> simp

end Demag.Props
