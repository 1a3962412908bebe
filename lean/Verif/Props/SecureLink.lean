import Verif.Model.SecureLink
import Verif.Spec.SecureLink
import Verif.Props.Mse
import Verif.Props.Connect

/-! # Properties: an encrypted conversation on the network (C65) -/

namespace Demag.Props

open Demag Spec

/-! ### Reading everything -/

theorem read_buffer (s : EncryptedStream) (room : Nat) (net : Option Bytes) (h : s.readBuffer ≠ []) :
    s.read room net = some ([], xorAt (inByte s.keystream) 0 (s.readBuffer.take (min room s.readBuffer.length)),
      { s with readBuffer := s.readBuffer.drop (min room s.readBuffer.length),
               keystream := (s.keystream.decode (s.readBuffer.take (min room s.readBuffer.length))).2 }) := by
  unfold EncryptedStream.read
  rw [if_pos h]
  simp only [(decode_eq _ _).1]

theorem read_net (s : EncryptedStream) (room : Nat) (b : Bytes) (h : s.readBuffer = []) (hb : b.length ≤ room) :
    s.read room (some b) = some (b, xorAt (inByte s.keystream) 0 b, { s with keystream := (s.keystream.decode b).2 }) := by
  unfold EncryptedStream.read
  rw [if_neg (by simp [h])]
  simp only [if_pos hb, (decode_eq _ _).1]

theorem xor_cut (f : Nat → UInt8) (ks : Keystream) (hf : f = inByte ks) (a b : Bytes) :
    xorAt f 0 a ++ xorAt (inByte (ks.decode a).2) 0 b = xorAt f 0 (a ++ b) := by
  subst hf
  have : inByte (ks.decode a).2 = fun j => inByte ks (a.length + j) := funext (decode_eq ks a).2.1
  rw [this, xorAt_shift, xorAt_append]
  simp

/-- Whatever room is offered to each read, all that arrives is delivered, decrypted, in order. -/
theorem drain_all (rooms : Nat → Nat) (hr : ∀ k, 0 < rooms k) (fuel k : Nat) (s : EncryptedStream) (net : List Bytes) (hn : [] ∉ net)
    (hf : s.readBuffer.length + net.flatten.length ≤ fuel) :
    (s.drain rooms fuel k net).flatten = xorAt (inByte s.keystream) 0 (s.readBuffer ++ net.flatten) := by
  induction fuel generalizing k s net with
  | zero =>
    have h1 : s.readBuffer = [] := List.length_eq_zero_iff.1 (by omega)
    have h2 : net.flatten = [] := List.length_eq_zero_iff.1 (by omega)
    simp [EncryptedStream.drain, h1, h2, xorAt]
  | succ fuel ih =>
    unfold EncryptedStream.drain
    by_cases hb : s.readBuffer = []
    · rw [if_neg (by simp [hb])]
      cases net with
      | nil => simp [hb, xorAt]
      | cons b bs =>
        have hbne : b ≠ [] := by rintro rfl; simp at hn
        have hbl : 0 < b.length := List.length_pos_iff.2 hbne
        have hk := hr k
        simp only
        rw [read_net s (rooms k) _ hb (by simp; omega)]
        simp only [List.flatten_cons]
        by_cases hl : b.length ≤ rooms k
        · rw [if_pos hl, List.take_of_length_le hl, ih (k + 1) _ bs (fun h => hn (by simp [h])) (by
            simp only [hb, List.length_nil, List.flatten_cons, List.length_append] at hf ⊢; omega)]
          simp only [hb, List.nil_append]
          exact xor_cut _ s.keystream rfl b _
        · rw [if_neg hl, ih (k + 1) _ (b.drop (rooms k) :: bs) (by
              simp only [List.mem_cons, not_or]
              refine ⟨fun h => ?_, fun h => hn (by simp [h])⟩
              have := congrArg List.length h
              simp at this; omega) (by
            simp only [hb, List.length_nil, List.flatten_cons, List.length_append, List.length_drop] at hf ⊢; omega)]
          simp only [hb, List.nil_append, List.flatten_cons]
          rw [xor_cut _ s.keystream rfl (b.take (rooms k)), ← List.append_assoc, List.take_append_drop]
    · rw [if_pos hb, read_buffer s _ _ hb]
      have hbl : 0 < s.readBuffer.length := List.length_pos_iff.2 hb
      have hk := hr k
      simp only [List.flatten_cons]
      rw [ih (k + 1) _ net hn (by simp only [List.length_drop]; omega)]
      simp only
      rw [xor_cut _ s.keystream rfl, ← List.append_assoc, List.take_append_drop]

theorem restOf_data (cs : List Bytes) (hc : [] ∉ cs) (tail : List HandshakeRead) :
    restOf (cs.map .data ++ tail) = (cs ++ (restOf tail).1, (restOf tail).2) := by
  induction cs with
  | nil => rfl
  | cons c cs ih =>
    cases c with
    | nil => simp at hc
    | cons x xs =>
      simp only [List.map_cons, List.cons_append, restOf]
      rw [ih (fun h => hc (by simp [h]))]

theorem restOf_ne (rs : List HandshakeRead) : [] ∉ (restOf rs).1 := by
  induction rs with
  | nil => simp [restOf]
  | cons r rs ih =>
    cases r with
    | data b => cases b <;> simp_all [restOf]
    | eof => simp [restOf]
    | failed => simp [restOf]
    | timeout => simpa [restOf] using ih

theorem restOf_closes {tail : List HandshakeRead} {e : Ending} (h : Closes tail e) : restOf tail = ([], e) := by
  cases e <;> (simp only [Closes] at h; subst h; rfl)

/-! ### Which sends matter -/

theorem handleInput_keeps (h h' : Handshaker) (b : Bytes) (e : h.handleInput b = .ok h') :
    h'.output = h.output ∧ h'.timeout = h.timeout ∧ h'.padcLen = h.padcLen ∧ h'.skey = h.skey ∧ h'.provide = h.provide ∧
      ((∀ a, h.state ≠ .packet2 a) → ∀ a, h'.state ≠ .packet2 a) ∧ (∀ a, h.state = .packet2 a → h'.state = .packet2 a) := by
  unfold Handshaker.handleInput at e
  cases hst : h.state with
  | packet2 a =>
    rw [hst] at e; simp only [Except.ok.injEq] at e; subst e
    exact ⟨rfl, rfl, rfl, rfl, rfl, fun h => absurd rfl (h a), fun a h => by simpa [hst] using h⟩
  | done ks =>
    rw [hst] at e; simp only [Except.ok.injEq] at e; subst e
    exact ⟨rfl, rfl, rfl, rfl, rfl, fun h => by simp [hst], fun a h => by cases h⟩
  | packet4 ks sub =>
    rw [hst] at e
    simp only at e
    cases hp : packet4Loop h.provide ks sub (h.input ++ b) with
    | error e' => rw [hp] at e; cases e
    | ok r =>
      rw [hp] at e; simp only [Except.map, Except.ok.injEq] at e; subst e
      refine ⟨rfl, rfl, rfl, rfl, rfl, fun _ a hh => ?_, fun a h => by cases h⟩
      obtain ⟨st, rest⟩ := r
      simp only at hh
      subst hh
      exact packet4Loop_ne _ _ _ _ _ _ hp

theorem handleTimeout_other (H : Bytes → Bytes) (h : Handshaker) (hn : ∀ a, h.state ≠ .packet2 a) : h.handleTimeout H = .ok h := by
  unfold Handshaker.handleTimeout
  cases hst : h.state with
  | packet2 a => exact absurd hst (hn a)
  | _ => rfl

/-- After packet 3 nothing more is sent by the handshake. -/
theorem loop_later (H : Bytes → Bytes) (f g : Nat → Bool) (reads : List HandshakeRead) (n n' : Nat) (d : Bool) (h : Handshaker)
    (hs : ∀ a, h.state ≠ .packet2 a) (hf : h.output.isSome = true → f n = true ∧ g n' = true) :
    handshakeLoop H f n d h reads = handshakeLoop H g n' d h reads := by
  induction reads generalizing n n' d h with
  | nil =>
    rw [handshakeLoop, handshakeLoop]
    cases ho : h.output with
    | none => simp
    | some o => simp [hf (by simp [ho])]
  | cons r rs ih =>
    rw [handshakeLoop, handshakeLoop]
    cases hst : h.state with
    | packet2 a => exact absurd hst (hs a)
    | done ks => rfl
    | packet4 ks sub =>
      have hff : (h.output.isSome && !f n) = (h.output.isSome && !g n') := by
        cases ho : h.output with
        | none => rfl
        | some o => simp [hf (by simp [ho])]
      have hno : (h.output.isSome && !g n') = false := by
        cases ho : h.output with
        | none => rfl
        | some o => simp [hf (by simp [ho])]
      simp only [hff, hno, Bool.false_eq_true, if_false]
      cases r with
      | data b =>
        cases b with
        | nil => rfl
        | cons x xs =>
          simp only
          generalize hh : Handshaker.handleInput _ (x :: xs) = q
          cases q with
          | error e => rfl
          | ok h'' =>
            have hk := handleInput_keeps _ _ _ hh
            simp only
            rw [ih _ (if h.output.isSome = true then n' + 2 else n') _ h'' (hk.2.2.2.2.2.1 (by simp)) (by
              rw [hk.1]; simp)]
      | eof => rfl
      | failed => rfl
      | timeout =>
        simp only
        split
        · rw [handleTimeout_other H _ (by simp)]
          simp only
          rw [ih _ (if h.output.isSome = true then n' + 2 else n') _ _ (by simp [hst]) (by simp)]
        · rfl

/-- Only the two packets of the handshake need be sent. -/
theorem loop_sends (H : Bytes → Bytes) (f g : Nat → Bool) (reads : List HandshakeRead) (n : Nat) (d : Bool) (h : Handshaker) (a : Nat)
    (hs : h.state = .packet2 a) (h1 : h.output.isSome = true → f n = true ∧ g n = true ∧ f (n + 2) = true ∧ g (n + 2) = true)
    (h2 : h.output = none → f n = true ∧ g n = true) : handshakeLoop H f n d h reads = handshakeLoop H g n d h reads := by
  induction reads generalizing n d h with
  | nil =>
    rw [handshakeLoop, handshakeLoop]
    cases ho : h.output with
    | none => simp
    | some o => simp [h1 (by simp [ho])]
  | cons r rs ih =>
    have hff : (h.output.isSome && !f n) = false := by
      cases ho : h.output with
      | none => rfl
      | some o => simp [h1 (by simp [ho])]
    have hgg : (h.output.isSome && !g n) = false := by
      cases ho : h.output with
      | none => rfl
      | some o => simp [h1 (by simp [ho])]
    have hnext : f (if h.output.isSome = true then n + 2 else n) = true ∧ g (if h.output.isSome = true then n + 2 else n) = true := by
      cases ho : h.output with
      | none => simpa using h2 ho
      | some o => have := h1 (by simp [ho]); simp [this]
    rw [handshakeLoop, handshakeLoop, hs]
    simp only [hff, hgg, Bool.false_eq_true, if_false]
    cases r with
    | data b =>
      cases b with
      | nil => rfl
      | cons x xs =>
        simp only
        generalize hh : Handshaker.handleInput _ (x :: xs) = q
        cases q with
        | error e => rfl
        | ok h'' =>
          have hk := handleInput_keeps _ _ _ hh
          simp only
          rw [ih _ _ h'' (hk.2.2.2.2.2.2 a (by simp [hs])) (by rw [hk.1]; simp) (fun _ => hnext)]
    | eof => rfl
    | failed => rfl
    | timeout =>
      simp only
      split
      · generalize hh : Handshaker.handleTimeout H _ = q
        cases q with
        | error e => rfl
        | ok h'' =>
          simp only
          rw [loop_later H f g rs _ _ _ h'' ?_ (fun _ => hnext)]
          intro a'
          rw [handleTimeout_eq H _ a rfl] at hh
          split at hh
          · simp only [Except.ok.injEq] at hh; subst hh; simp [afterPacket3]
          · cases hh
      · rfl

/-! ### Whatever the peer does -/

/-- Only RC4 has been agreed on. -/
def GoodSub : Packet4State → Prop
  | .vc => True
  | .select => True
  | .lenPadD m => m = .rc4
  | .padD m _ => m = .rc4

/-- The outgoing keystream is not touched, and the method is RC4. -/
def Kept (o : Rc4) (st : HandshakeState) : Prop :=
  (∃ i', st = .done (.rc4 o i')) ∨ ∃ i' sub', st = .packet4 (.rc4 o i') sub' ∧ GoodSub sub'

theorem onPadD_kept (o i : Rc4) (n : Nat) (buf : Bytes) (r) (h : onPadD .rc4 n (.rc4 o i) buf = .ok r) : Kept o r.1 := by
  simp only [onPadD, Keystream.decode] at h
  split at h
  · simp only [Except.ok.injEq] at h; subst h; exact .inl ⟨_, rfl⟩
  · simp only [Except.ok.injEq] at h; subst h; exact .inr ⟨_, _, rfl, rfl⟩

theorem onLenPadD_kept (o i : Rc4) (buf : Bytes) (r) (h : onLenPadD .rc4 (.rc4 o i) buf = .ok r) : Kept o r.1 := by
  rw [onLenPadD] at h
  split at h
  · simp only [Except.ok.injEq] at h; subst h; exact .inr ⟨_, _, rfl, rfl⟩
  · simp only [Keystream.decode] at h; exact onPadD_kept _ _ _ _ _ h

theorem onSelect_kept (o i : Rc4) (buf : Bytes) (r) (h : onSelect 2 (.rc4 o i) buf = .ok r) : Kept o r.1 := by
  rw [onSelect] at h
  split at h
  · simp only [Except.ok.injEq] at h; subst h; exact .inr ⟨_, _, rfl, trivial⟩
  · obtain ⟨q, j, hd⟩ : ∃ q j, (Keystream.rc4 o i).decode (buf.take 4) = (q, .rc4 o j) := ⟨_, _, rfl⟩
    simp only [hd] at h
    split at h
    · cases h
    · split at h
      · cases h
      · rename_i m _
        split at h
        · rename_i hm
          cases m with
          | plaintext => exact absurd hm (by decide)
          | rc4 => exact onLenPadD_kept _ _ _ _ h
        · cases h

theorem onVc_kept (o i : Rc4) (buf : Bytes) (r) (h : onVc 2 (.rc4 o i) buf = .ok r) : Kept o r.1 := by
  rw [onVc] at h
  split at h
  · simp only [Except.ok.injEq] at h; subst h; exact .inr ⟨_, _, rfl, trivial⟩
  · obtain ⟨q, j, hd⟩ : ∃ q j, (Keystream.rc4 o i).decode (buf.take 8) = (q, .rc4 o j) := ⟨_, _, rfl⟩
    simp only [hd] at h
    split at h
    · exact onSelect_kept _ _ _ _ h
    · cases h

theorem packet4_kept (o i : Rc4) (sub : Packet4State) (hg : GoodSub sub) (buf : Bytes) (r)
    (h : packet4Loop 2 (.rc4 o i) sub buf = .ok r) : Kept o r.1 := by
  cases sub with
  | vc => exact onVc_kept _ _ _ _ h
  | select => exact onSelect_kept _ _ _ _ h
  | lenPadD m => cases hg; exact onLenPadD_kept _ _ _ _ h
  | padD m n => cases hg; exact onPadD_kept _ _ _ _ _ h

theorem packet4_not_send (p : BitVec 32) (ks : Keystream) (sub : Packet4State) (buf : Bytes) :
    packet4Loop p ks sub buf ≠ .error .send := by
  have h1 : ∀ m n ks (a : Bytes), onPadD m n ks a ≠ .error .send := by
    intro m n ks a; simp only [onPadD]; split <;> simp
  have h2 : ∀ m ks (a : Bytes), onLenPadD m ks a ≠ .error .send := by
    intro m ks a; rw [onLenPadD]; split
    · simp
    · exact h1 _ _ _ _
  have h3 : ∀ ks (a : Bytes), onSelect p ks a ≠ .error .send := by
    intro ks a; rw [onSelect]; split
    · simp
    · simp only
      split
      · simp
      · split
        · simp
        · split
          · exact h2 _ _ _
          · simp
  cases sub with
  | vc =>
    simp only [packet4Loop]; rw [onVc]; split
    · simp
    · simp only
      split
      · exact h3 _ _
      · simp
  | select => exact h3 _ _
  | lenPadD m => exact h2 _ _ _
  | padD m n => exact h1 _ _ _ _

/-- After packet 3. -/
theorem loop4_hidden (H : Bytes → Bytes) (f : Nat → Bool) (reads : List HandshakeRead) (n : Nat) (d : Bool) (h : Handshaker) (o : Rc4)
    (hst : Kept o h.state) (hp : h.provide = 2) (hd : (∃ ks, h.state = .done ks) → h.output = none) :
    let r := handshakeLoop H f n d h reads
    (r.1 = [] ∧ r.2.1 = .err .send ∧ h.output.isSome = true ∧ f n = false) ∨
    (r.1 = h.output.toList ∧ r.2.1 ≠ .err .send ∧ ∀ s, r.2.1 = .ok s → ∃ i', s.keystream = .rc4 o i') := by
  induction reads generalizing n d h with
  | nil =>
    intro r
    rcases hst with ⟨i', hst⟩ | ⟨i', sub, hst, hg⟩
    · have : r = ([], .ok ⟨.rc4 o i', h.input, []⟩, []) := by show handshakeLoop _ _ _ _ _ _ = _; rw [handshakeLoop, hst]
      rw [this, hd ⟨_, hst⟩]
      exact .inr ⟨rfl, (by simp), fun s hs => ⟨i', by simp only [HandshakeOutcome.ok.injEq] at hs; rw [← hs]⟩⟩
    · by_cases hf : (h.output.isSome && !f n) = true
      · have : r = ([], .err .send, []) := by
          show handshakeLoop _ _ _ _ _ _ = _; rw [handshakeLoop, hst]; simp only; rw [if_pos hf]
        rw [this]
        simp only [Bool.and_eq_true, Bool.not_eq_true'] at hf
        exact .inl ⟨rfl, rfl, hf.1, hf.2⟩
      · have : r = (h.output.toList, .waiting, []) := by
          show handshakeLoop _ _ _ _ _ _ = _; rw [handshakeLoop, hst]; simp only; rw [if_neg hf]
        rw [this]
        exact .inr ⟨rfl, by simp, by simp⟩
  | cons x rs ih =>
    intro r
    rcases hst with ⟨i', hst⟩ | ⟨i', sub, hst, hg⟩
    · have : r = ([], .ok ⟨.rc4 o i', h.input, []⟩, x :: rs) := by show handshakeLoop _ _ _ _ _ _ = _; rw [handshakeLoop, hst]
      rw [this, hd ⟨_, hst⟩]
      exact .inr ⟨rfl, (by simp), fun s hs => ⟨i', by simp only [HandshakeOutcome.ok.injEq] at hs; rw [← hs]⟩⟩
    · by_cases hf : (h.output.isSome && !f n) = true
      · have : r = ([], .err .send, x :: rs) := by
          show handshakeLoop _ _ _ _ _ _ = _; rw [handshakeLoop, hst]; simp only; rw [if_pos hf]
        rw [this]
        simp only [Bool.and_eq_true, Bool.not_eq_true'] at hf
        exact .inl ⟨rfl, rfl, hf.1, hf.2⟩
      · right
        have hr : r = handshakeLoop H f n d h (x :: rs) := rfl
        rw [handshakeLoop, hst] at hr
        simp only at hr
        rw [if_neg hf] at hr
        -- the state after one more step
        have hnext : ∀ (n' : Nat) (d' : Bool) (h'' : Handshaker), Kept o h''.state → h''.provide = 2 → h''.output = none →
            (h.output.toList ++ (handshakeLoop H f n' d' h'' rs).1 = h.output.toList) ∧
            (handshakeLoop H f n' d' h'' rs).2.1 ≠ .err .send ∧
            ∀ s, (handshakeLoop H f n' d' h'' rs).2.1 = .ok s → ∃ i', s.keystream = .rc4 o i' := by
          intro n' d' h'' h1 h2 h3
          rcases ih n' d' h'' h1 h2 (fun _ => h3) with ⟨-, -, h4, -⟩ | ⟨h4, h5, h6⟩
          · rw [h3] at h4; cases h4
          · rw [h4, h3]; exact ⟨by simp, h5, h6⟩
        cases x with
        | data b =>
          cases b with
          | nil => simp only at hr; rw [hr]; exact ⟨rfl, by simp, by simp⟩
          | cons y ys =>
            simp only [Handshaker.handleInput, hp] at hr
            cases hq : packet4Loop 2 (.rc4 o i') sub (h.input ++ y :: ys) with
            | error e =>
              rw [hq] at hr
              simp only [Except.map] at hr
              rw [hr]
              refine ⟨rfl, ?_, by simp⟩
              simp only [ne_eq, HandshakeOutcome.err.injEq]
              rintro rfl
              exact packet4_not_send _ _ _ _ hq
            | ok q =>
              rw [hq] at hr
              simp only [Except.map] at hr
              rw [hr]
              exact hnext _ _ _ (packet4_kept o i' sub hg _ q hq) rfl rfl
        | eof => simp only at hr; rw [hr]; exact ⟨rfl, by simp, by simp⟩
        | failed => simp only at hr; rw [hr]; exact ⟨rfl, by simp, by simp⟩
        | timeout =>
          simp only at hr
          rw [handleTimeout_other H _ (by simp)] at hr
          split at hr
          · simp only at hr
            rw [hr]
            exact hnext _ _ _ (.inr ⟨i', sub, rfl, hg⟩) hp rfl
          · rw [hr]; exact ⟨rfl, by simp, by simp⟩

/-- The outgoing keystream behind packet 3. -/
def outStream (H : Bytes → Bytes) (S : Bytes) (skey : InfoHash) (padcLen : BitVec 16) : Rc4 :=
  rc4After (freshRc4 (H (ascii "keyA" ++ S ++ skey.bytes))) (16 + padcLen.toNat)

/-- Before packet 3. -/
theorem loop2_hidden (H : Bytes → Bytes) (f : Nat → Bool) (reads : List HandshakeRead) (n : Nat) (d : Bool) (h : Handshaker) (a : Nat)
    (hst : h.state = .packet2 a) (hp : h.provide = 2) :
    let r := handshakeLoop H f n d h reads
    (r.1 = [] ∧ r.2.1 = .err .send ∧ h.output.isSome = true ∧ f n = false) ∨
    (r.1 = h.output.toList ∧ (∀ s, r.2.1 ≠ .ok s) ∧ (r.2.1 = .err .send → f (if h.output.isSome then n + 2 else n) = false)) ∨
    (∃ P, r.1 = h.output.toList ++ [packet3Of H (secretOf a P) h.skey.bytes 2 h.padcLen] ∧ r.2.1 ≠ .err .send ∧
      ∀ s, r.2.1 = .ok s → ∃ i', s.keystream = .rc4 (outStream H (secretOf a P) h.skey h.padcLen) i') := by
  induction reads generalizing n d h with
  | nil =>
    intro r
    by_cases hf : (h.output.isSome && !f n) = true
    · have : r = ([], .err .send, []) := by
        show handshakeLoop _ _ _ _ _ _ = _; rw [handshakeLoop, hst]; simp only; rw [if_pos hf]
      rw [this]
      simp only [Bool.and_eq_true, Bool.not_eq_true'] at hf
      exact .inl ⟨rfl, rfl, hf.1, hf.2⟩
    · have : r = (h.output.toList, .waiting, []) := by
        show handshakeLoop _ _ _ _ _ _ = _; rw [handshakeLoop, hst]; simp only; rw [if_neg hf]
      rw [this]
      exact .inr (.inl ⟨rfl, by simp, by simp⟩)
  | cons x rs ih =>
    intro r
    by_cases hf : (h.output.isSome && !f n) = true
    · have : r = ([], .err .send, x :: rs) := by
        show handshakeLoop _ _ _ _ _ _ = _; rw [handshakeLoop, hst]; simp only; rw [if_pos hf]
      rw [this]
      simp only [Bool.and_eq_true, Bool.not_eq_true'] at hf
      exact .inl ⟨rfl, rfl, hf.1, hf.2⟩
    · right
      have hr : r = handshakeLoop H f n d h (x :: rs) := rfl
      rw [handshakeLoop, hst] at hr
      simp only at hr
      rw [if_neg hf] at hr
      cases x with
      | data b =>
        cases b with
        | nil => simp only at hr; rw [hr]; exact .inl ⟨rfl, by simp, by simp⟩
        | cons y ys =>
          simp only [Handshaker.handleInput] at hr
          rw [hr]
          rcases ih (if h.output.isSome then n + 2 else n) (d || h.timeout)
              ⟨.packet2 a, none, h.padcLen, h.skey, false, h.input ++ y :: ys, h.provide⟩ rfl hp with
            ⟨-, -, h4, -⟩ | ⟨h4, h5, h6⟩ | ⟨P, h4, h5, h6⟩
          · cases h4
          · left
            refine ⟨?_, h5, fun e => ?_⟩
            · simp only at h4 ⊢; rw [h4]; simp
            · have := h6 e; simpa using this
          · right
            refine ⟨P, ?_, h5, h6⟩
            simp only at h4 ⊢; rw [h4]; simp
      | eof => simp only at hr; rw [hr]; exact .inl ⟨rfl, by simp, by simp⟩
      | failed => simp only at hr; rw [hr]; exact .inl ⟨rfl, by simp, by simp⟩
      | timeout =>
        simp only at hr
        rw [handleTimeout_eq H _ a rfl] at hr
        split at hr
        · split at hr
          · rename_i h1 h2 heq
            split at heq
            · cases heq
            · simp only [Except.error.injEq] at heq
              rw [hr]
              refine .inl ⟨rfl, by simp, fun e => ?_⟩
              simp only [HandshakeOutcome.err.injEq] at e
              rw [← heq] at e; cases e
          · rename_i h1 h'' heq
            split at heq
            · simp only [Except.ok.injEq] at heq
              rw [hr]
              simp only
              rcases loop4_hidden H f rs (if h.output.isSome then n + 2 else n) false h'' (outStream H (secretOf a h.input) h.skey h.padcLen)
                  (by rw [← heq]; exact .inr ⟨_, _, rfl, trivial⟩) (by rw [← heq]; exact hp)
                  (by rw [← heq]; rintro ⟨ks, hk⟩; cases hk) with ⟨h4, h5, h6, h7⟩ | ⟨h4, h5, h6⟩
              · left
                refine ⟨by rw [h4]; simp, ?_, fun _ => h7⟩
                rw [h5]; simp
              · right
                refine ⟨h.input, ?_, h5, h6⟩
                rw [h4, ← heq]
                simp only [afterPacket3, Option.toList, hp]
            · cases heq
        · rw [hr]; exact .inl ⟨rfl, by simp, by simp⟩

theorem outStream_byte (H : Bytes → Bytes) (S : Bytes) (skey : InfoHash) (padcLen : BitVec 16) :
    rc4Byte (outStream H S skey padcLen) = fun j => mseStream (H (keyAText ++ S ++ skey.bytes)) (16 + padcLen.toNat + j) := by
  have kA : keyAText = ascii "keyA" := by decide
  funext j
  rw [outStream, rc4Byte_after, freshRc4_byte, kA]

theorem silent_unconnected {l : Link} {ctx : PeerCtx} {enc : Bool} {sha1 : Bytes → Bytes}
    (h : l.connect ≠ .ok ∨ (enc = true ∧ l.crypto ≠ .ok)) : (visitChan sha1 l ctx enc).out = [] := by
  have : ∃ c r, connect l ctx enc = (c, r) ∧ c.out = [] ∧ ∀ s, r ≠ .ok s := by
    unfold connect
    simp only
    cases hc : l.connect with
    | fail => exact ⟨_, _, rfl, rfl, by simp⟩
    | hang => exact ⟨_, _, rfl, rfl, by simp⟩
    | ok =>
      rcases h with h | ⟨rfl, h⟩
      · exact absurd hc h
      · simp only [if_true]
        cases hy : l.crypto with
        | fail => exact ⟨_, _, rfl, rfl, by simp⟩
        | hang => exact ⟨_, _, rfl, rfl, by simp⟩
        | overflow => exact ⟨_, _, rfl, rfl, by simp⟩
        | ok => exact absurd hy h
  obtain ⟨c, r, h1, h2, h3⟩ := this
  unfold visitChan
  rw [h1]
  cases r with
  | ok s => exact absurd rfl (h3 s)
  | _ => exact h2

/-- **C65.** Whatever the peer and the network do, for all private keys, paddings and digests: an encrypted attempt puts on the network
nothing but packet 1, packet 3 and, behind them, the conversation hidden with the keystream that belongs to the shared secret; before the
handshake is complete nothing of the conversation is said at all. -/
theorem wire_hidden (sha1 H : Bytes → Bytes) (hH : ∀ b, (H b).length = 20) (c : Chances) (w : RawLink) (ctx : PeerCtx) :
    Hidden H c.privateKey c.padA ctx.infoHash.bytes c.padcLen.toNat
      (visitChan sha1 (w.link H c ctx.infoHash true) ctx true).out (wireBytes sha1 H c w ctx true) := by
  unfold wireBytes
  simp only
  by_cases hc : w.connect = .ok
  · rw [if_neg (by simp [hc]), if_pos trivial]
    by_cases hov : w.overflows c = true
    · rw [if_pos hov]
      have hs : (visitChan sha1 (w.link H c ctx.infoHash true) ctx true).out = [] :=
        silent_unconnected (.inr ⟨rfl, by unfold RawLink.link; rw [if_pos rfl, if_pos hov]; simp⟩)
      have hg := Hidden.greeted (H := H) (padA := c.padA) (skey := ctx.infoHash.bytes) (padcLen := c.padcLen.toNat) _ hs (sent_exactly 2 c.privateKey)
      simpa [Handshaker.build] using hg
    rw [if_neg hov]
    have hset : methodSet [.rc4] = 2#32 := by decide
    have key := loop2_hidden H (fun n => w.sends (n / 2) = .ok) w.reads 1 false
      (Handshaker.build ctx.infoHash c.privateKey c.padA c.padcLen) c.privateKey rfl hset
    have hA := sent_exactly 2 c.privateKey
    simp only at key
    rw [show handshakeLoop H (fun n => decide (w.sends (n / 2) = .ok)) 1 false
      (Handshaker.build ctx.infoHash c.privateKey c.padA c.padcLen) w.reads = w.secure H c ctx.infoHash from rfl] at key
    have hlink : w.link H c ctx.infoHash true = match w.secure H c ctx.infoHash with
      | (packets, .ok s, rest) =>
        { connect := w.connect, crypto := .ok
          incoming := (s.drain c.rooms (s.readBuffer.length + (restOf rest).1.flatten.length) 0 (restOf rest).1).flatten
          ending := (restOf rest).2, sends := fun n => w.sends (packets.length + n) }
      | (packets, .err .send, _) =>
        { connect := w.connect, crypto := .ofIo (w.sends packets.length), incoming := [], ending := .stall, sends := w.sends }
      | (_, .err _, _) => { connect := w.connect, crypto := .fail, incoming := [], ending := .stall, sends := w.sends }
      | (_, .waiting, _) => { connect := w.connect, crypto := .hang, incoming := [], ending := .stall, sends := w.sends } := by
        unfold RawLink.link; rw [if_pos rfl, if_neg hov]; rfl
    generalize w.secure H c ctx.infoHash = r at key hlink
    obtain ⟨packets, outcome, rest⟩ := r
    have hp1 : (Handshaker.build ctx.infoHash c.privateKey c.padA c.padcLen).output =
      some (biguint2bytes (modpow 2 c.privateKey primeModulus) ++ c.padA) := rfl
    have hsk : (Handshaker.build ctx.infoHash c.privateKey c.padA c.padcLen).skey = ctx.infoHash := rfl
    have hpc : (Handshaker.build ctx.infoHash c.privateKey c.padA c.padcLen).padcLen = c.padcLen := rfl
    rw [hp1, hsk, hpc] at key
    simp only [Option.toList, Option.isSome_some, if_true, List.cons_append, List.nil_append] at key
    -- without a keystream nothing is said
    have hsilent : (∀ s, outcome ≠ .ok s) → (outcome = .err .send → w.sends packets.length ≠ .ok) →
        (visitChan sha1 (w.link H c ctx.infoHash true) ctx true).out = [] := by
      intro h1 h2
      refine silent_unconnected (.inr ⟨rfl, ?_⟩)
      rw [hlink]
      cases outcome with
      | ok s => exact absurd rfl (h1 s)
      | waiting => simp
      | err e =>
        by_cases he : e = .send
        · subst he
          have := h2 rfl
          revert this
          simp only
          cases w.sends packets.length <;> simp [SecureOutcome.ofIo]
        · cases e <;> first | exact absurd rfl he | (intro h; cases h)
    rcases key with ⟨h1, h2, -, h4⟩ | ⟨h1, h2, h3⟩ | ⟨P, h1, h2, h3⟩
    · subst h1 h2
      exact .nothing (hsilent (by simp) (by simpa using h4))
    · subst h1
      have hs := hsilent h2 (fun e => by simpa using h3 e)
      have hg := Hidden.greeted (H := H) (padA := c.padA) (skey := ctx.infoHash.bytes) (padcLen := c.padcLen.toNat) _ hs hA
      cases outcome with
      | ok s => exact absurd rfl (h2 s)
      | err e => simpa using hg
      | waiting => simpa using hg
    · subst h1
      have hS := secretOf_sent c.privateKey P
      have h3' := packet3_ok H hH (secretOf c.privateKey P) ctx.infoHash.bytes c.padcLen
      have := Hidden.talked (H := H) (a := c.privateKey) (padA := c.padA) (skey := ctx.infoHash.bytes) (padcLen := c.padcLen.toNat)
        (out := (visitChan sha1 (w.link H c ctx.infoHash true) ctx true).out) _ _ _ _ hA hS h3'
      cases outcome with
      | ok s =>
        obtain ⟨i', hk⟩ := h3 s rfl
        simp only [hk, Keystream.encode, apply_eq, outStream_byte, xorAt_shift, Nat.add_zero]
        simpa using this
      | err e =>
        rw [hsilent (by simp) (fun e => absurd e h2)] at this ⊢
        simpa [xorAt] using this
      | waiting =>
        rw [hsilent (by simp) (by simp)] at this ⊢
        simpa [xorAt] using this
  · rw [if_pos hc]
    refine .nothing (silent_unconnected (.inl ?_))
    unfold RawLink.link
    rw [if_pos rfl]
    split
    · exact hc
    · split <;> exact hc

/-- **C65.** How the encryption of a connection ends, for a handshake that does not panic: it fails if the handshake is refused or a packet cannot be
sent, and it is stuck if the peer is silent or a packet is never completely sent. -/
theorem crypto_outcome (H : Bytes → Bytes) (c : Chances) (w : RawLink) (skey : InfoHash) (ho : w.overflows c = false) :
    ((∃ s, (w.secure H c skey).2.1 = .ok s) → (w.link H c skey true).crypto = .ok) ∧
    ((w.link H c skey true).crypto = .fail ↔ (∃ e, e ≠ .send ∧ (w.secure H c skey).2.1 = .err e) ∨
      ((w.secure H c skey).2.1 = .err .send ∧ w.sends (w.secure H c skey).1.length = .fail)) ∧
    ((w.link H c skey true).crypto = .hang ↔ (w.secure H c skey).2.1 = .waiting ∨
      ((w.secure H c skey).2.1 = .err .send ∧ w.sends (w.secure H c skey).1.length = .hang)) := by
  unfold RawLink.link
  rw [if_pos rfl, if_neg (by rw [ho]; simp)]
  generalize w.secure H c skey = r
  obtain ⟨packets, outcome, rest⟩ := r
  cases outcome with
  | ok s => simp
  | waiting => simp
  | err e =>
    cases e
    case send => cases hs : w.sends packets.length <;> simp [SecureOutcome.ofIo, hs]
    all_goals simp

/-- **C69.** The encryption handshake panics exactly if packet 1 can be sent and the moment at which the time for packet 2 ends is too far away. -/
theorem overflow_iff (H : Bytes → Bytes) (c : Chances) (w : RawLink) (skey : InfoHash) (enc : Bool) :
    (w.link H c skey enc).crypto = .overflow ↔ enc = true ∧ w.sends 0 = .ok ∧ 2 ^ 63 ≤ c.now + c.dhTimeout := by
  unfold RawLink.link
  cases enc with
  | false => simp
  | true =>
    rw [if_pos rfl]
    by_cases h : w.overflows c = true
    · rw [if_pos h]
      simp only [RawLink.overflows, momentAfter, Bool.and_eq_true, decide_eq_true_eq] at h
      obtain ⟨h1, h2⟩ := h
      split at h2
      · cases h2
      · simp [h1]; omega
    · rw [if_neg h]
      constructor
      · intro h'
        split at h'
        · cases h'
        · rename_i packets _ _
          simp only at h'
          cases hs : w.sends packets.length <;> rw [hs] at h' <;> cases h'
        · cases h'
        · cases h'
      · rintro ⟨-, h1, h2⟩
        exact absurd (by simp [RawLink.overflows, momentAfter, h1]; omega) h

theorem link_connect (H : Bytes → Bytes) (c : Chances) (w : RawLink) (skey : InfoHash) (enc : Bool) : (w.link H c skey enc).connect = w.connect := by
  unfold RawLink.link
  split
  · split
    · rfl
    · split <;> rfl
  · rfl

/-- **C65.** With a peer that follows the protocol, for all private keys, paddings, digests, cuts and sizes of the reads, an encrypted
connection is the same as an unencrypted one (`w'`) over which the peer sends `app` as it is: the same bytes arrive, they end in the same
way, and sends fare alike. -/
theorem encrypted_as_plain (H : Bytes → Bytes) (hH : ∀ b, (H b).length = 20) (c c' : Chances) (hrooms : ∀ k, 0 < c.rooms k)
    (w w' : RawLink) (skey : InfoHash) (b : Nat) (S padB padD app : Bytes) (c1 c2 c3 : List Bytes) (tail : List HandshakeRead)
    (ending : Ending) (hS : Sent96 ((2 ^ c.privateKey % msePrime) ^ b % msePrime) S)
    (hr : Responder H skey.bytes b S padB padD app c1 c2) (hw : w.reads = responderReads c1 c2 tail) (ht : Closes tail ending)
    (h0 : w.sends 0 = .ok) (h1 : w.sends 1 = .ok) (hfit : c.now + c.dhTimeout < 2 ^ 63)
    (happ : c3.flatten = app) (h3 : [] ∉ c3) (hw' : w' = ⟨w.connect, c3.map .data ++ tail, fun n => w.sends (2 + n)⟩) :
    w.link H c skey true = w'.link H c' skey false := by
  obtain ⟨⟨B, hB, e1⟩, hpB, ⟨sel, len, hs1, hs2, hl1, hl2, e2⟩, hp1, hp2⟩ := hr
  have hcl := restOf_closes ht
  -- the sends of the handshake
  have hsec : w.secure H c skey = handshake H (fun _ => true) skey c.privateKey c.padA c.padcLen c1 c2 tail := by
    rw [RawLink.secure, hw, handshake]
    exact loop_sends H _ _ _ 1 false _ c.privateKey rfl (fun _ => by simp [h0, h1]) (fun _ => by simp [h0])
  have hl : 96 ≤ c1.flatten.length ∧ c1.flatten.length ≤ 608 := by rw [e1]; simp [hB.1]; omega
  have htk : c1.flatten.take 96 = B := by rw [e1, List.take_left' hB.1]
  have hP := sent_exactly 2 c.privateKey
  have hS' : Sent96 (beValue (c1.flatten.take 96) ^ c.privateKey % msePrime) S := by
    rw [htk, key_agreement c.privateKey b _ B S hP hB, hP.2]; exact hS
  have hrep : Reply 2 (List.replicate 8 0 ++ sel ++ len ++ padD ++ app) .rc4 padD.length :=
    ⟨by simp [Offers], sel, len, padD, app, rfl, hs1, hs2, hl1, hl2, rfl⟩
  obtain ⟨-, k, left, o, i, h4, h5, h6, h7⟩ :=
    (reply_outcome H (fun _ => true) (fun _ => rfl) skey c.privateKey c.padA c.padcLen c1 c2 tail hp1 hp2 hl S hS' _
      (by rw [e2, xorAt_xorAt])).1 _ _ hrep
  -- both packets have been sent
  have hpk : (handshake H (fun _ => true) skey c.privateKey c.padA c.padcLen c1 c2 tail).1.length = 2 := by
    have he := handshake_eq H (fun _ => true) (fun _ => rfl) skey c.privateKey c.padA c.padcLen c1 c2 tail hp1 hp2 hl
    dsimp only at he
    have hc := packet4_cases 2 (rc4After (freshRc4 (H (ascii "keyA" ++ secretOf c.privateKey c1.flatten ++ skey.bytes))) (16 + c.padcLen.toNat))
      (freshRc4 (H (ascii "keyB" ++ secretOf c.privateKey c1.flatten ++ skey.bytes))) c2.flatten
    have hSe : S = secretOf c.privateKey c1.flatten := sent96_inj hS' (secretOf_sent _ _)
    have kB : keyBText = ascii "keyB" := by decide
    rw [freshRc4_byte, ← hSe, ← kB, e2, xorAt_xorAt] at hc
    rw [← hSe, ← kB] at he
    rw [e2] at he
    generalize packet4Loop 2 _ .vc _ = q at he hc
    match q, he, hc with
    | .error e, ⟨k, he⟩, _ => rw [he]; rfl
    | .ok (.done ks, rest), ⟨k, left, h6, he⟩, _ => rw [he]; rfl
    | .ok (.packet2 _, _), he, hc => exact absurd hrep (hc.1 _ _)
    | .ok (.packet4 _ _, _), he, hc => exact absurd hrep (hc.1 _ _)
  have hin : ∀ j, [] ∉ c2.drop j := fun j h => hp2 (List.mem_of_mem_drop h)
  have hpair : handshake H (fun _ => true) skey c.privateKey c.padA c.padcLen c1 c2 tail =
      ((handshake H (fun _ => true) skey c.privateKey c.padA c.padcLen c1 c2 tail).1, .ok ⟨.rc4 o i, left, []⟩, (c2.drop k).map .data ++ tail) :=
    Prod.ext rfl h4
  subst hw'
  unfold RawLink.link
  rw [if_pos rfl, if_neg (by simp [RawLink.overflows, momentAfter, hfit]), if_neg (by simp), hsec, hpair]
  simp only
  rw [hpk, restOf_data _ (hin k), restOf_data _ h3, hcl]
  simp only [List.append_nil]
  rw [drain_all c.rooms hrooms _ 0 ⟨.rc4 o i, left, []⟩ _ (hin k) (Nat.le_refl _)]
  simp only
  have hf : inByte (.rc4 o i) = fun j => mseStream (H (keyBText ++ S ++ skey.bytes)) (14 + padD.length + j) := funext h7
  have hd := xorAt_drop (mseStream (H (keyBText ++ S ++ skey.bytes))) 0 (14 + padD.length)
    (xorAt (mseStream (H (keyBText ++ S ++ skey.bytes))) 0 (List.replicate 8 0 ++ sel ++ len ++ padD ++ app))
  rw [Nat.zero_add] at hd
  rw [h5, hf, xorAt_shift, Nat.add_zero, e2, hd, xorAt_xorAt, List.drop_left' (by simp [hs1, hl1]; omega), happ]

theorem connect_not_crypto {l : Link} {ctx : PeerCtx} {enc : Bool} (h : l.crypto = .ok) : (connect l ctx enc).2 ≠ .err .cryptoHandshake := by
  intro hr
  obtain ⟨ours, -, hc, -⟩ := connect_spec l ctx enc
  rw [hr] at hc
  generalize hz : (Res.err .cryptoHandshake : Res PeerError (Option (BitVec 32))) = z at hc
  generalize (connect l ctx enc).1.trace = tr at hc
  cases hc with
  | cryptoFail _ _ h' => rw [h] at h'; cases h'
  | short => split at hz <;> cases hz
  | _ => cases hz

theorem connect_crypto_irrelevant {l : Link} {ctx : PeerCtx} (h : l.crypto = .ok) : connect l ctx true = connect l ctx false := by
  unfold connect
  simp only [h, if_true]
  rfl

theorem finish_same (sha1 : Bytes → Bytes) (ctx : PeerCtx) (l : Link) (r : Chan × Res PeerError (Option (BitVec 32))) :
    (finishRun sha1 ctx [] l true r).2 = (finishRun sha1 ctx [] l false r).2 ∧
    (finishRun sha1 ctx [] l true r).1.map Attempt.trace = (finishRun sha1 ctx [] l false r).1.map Attempt.trace := by
  obtain ⟨c, r⟩ := r
  cases r <;> exact ⟨rfl, rfl⟩

/-- **C65.** Therefore encryption changes nothing about what is got: whenever the settings allow an encrypted connection and the peer follows
the protocol, asking it has the same result, after the same conversation, as asking without encryption a peer that says the same. -/
theorem encrypted_run (sha1 H : Bytes → Bytes) (hH : ∀ b, (H b).length = 20) (chances : Nat → Chances) (hrooms : ∀ k, 0 < (chances 0).rooms k)
    (raws : Nat → RawLink) (w' : RawLink) (ctx : PeerCtx) (override : Option CryptoMode) (pref pref' : CryptoPreference) (required : Bool)
    (hmode : getCryptoMode override pref required = some .encrypt ∨ getCryptoMode override pref required = some .prefer)
    (b : Nat) (S padB padD app : Bytes) (c1 c2 c3 : List Bytes) (tail : List HandshakeRead)
    (ending : Ending) (hS : Sent96 ((2 ^ (chances 0).privateKey % msePrime) ^ b % msePrime) S)
    (hr : Responder H ctx.infoHash.bytes b S padB padD app c1 c2) (hw : (raws 0).reads = responderReads c1 c2 tail)
    (ht : Closes tail ending) (h0 : (raws 0).sends 0 = .ok) (h1 : (raws 0).sends 1 = .ok)
    (hfit : (chances 0).now + (chances 0).dhTimeout < 2 ^ 63)
    (happ : c3.flatten = app) (h3 : [] ∉ c3)
    (hw' : w' = ⟨(raws 0).connect, c3.map .data ++ tail, fun n => (raws 0).sends (2 + n)⟩) :
    let enc := wireRun sha1 H chances raws ctx override pref required
    let plain := wireRun sha1 H chances (fun _ => w') ctx (some .plain) pref' false
    enc.2 = plain.2 ∧ enc.1.map Attempt.trace = plain.1.map Attempt.trace ∧
      enc.1.map Attempt.encrypt = [true] ∧ plain.1.map Attempt.encrypt = [false] := by
  have hlink := encrypted_as_plain H hH (chances 0) (chances 0) hrooms (raws 0) w' ctx.infoHash b S padB padD app c1 c2 c3 tail ending
    hS hr hw ht h0 h1 hfit happ h3 hw'
  have hcr : (w'.link H (chances 0) ctx.infoHash false).crypto = .ok := rfl
  have hplain : wireRun sha1 H chances (fun _ => w') ctx (some .plain) pref' false =
      finishRun sha1 ctx [] (w'.link H (chances 0) ctx.infoHash false) false (connect (w'.link H (chances 0) ctx.infoHash false) ctx false) := rfl
  have henc : wireRun sha1 H chances raws ctx override pref required =
      finishRun sha1 ctx [] (w'.link H (chances 0) ctx.infoHash false) true (connect (w'.link H (chances 0) ctx.infoHash false) ctx false) := by
    rcases hmode with hm | hm
    · rw [wireRun, infoGetterRun, hm]
      have hx : ((0 == 0 && (some CryptoMode.encrypt != some CryptoMode.plain)) : Bool) = true := by decide
      simp only [hx, hlink, connect_crypto_irrelevant hcr]
    · rw [wireRun, infoGetterRun, hm]
      have hx : ((0 == 0 && (some CryptoMode.prefer != some CryptoMode.plain)) : Bool) = true := by decide
      simp only [hx, hlink, connect_crypto_irrelevant hcr]
      have hne := connect_not_crypto (ctx := ctx) (enc := false) hcr
      generalize connect (w'.link H (chances 0) ctx.infoHash false) ctx false = r at hne
      obtain ⟨c, r⟩ := r
      cases r with
      | err e => cases e <;> first | rfl | exact absurd rfl hne
      | _ => rfl
  intro enc plain
  have e1 : enc = _ := henc
  have e2 : plain = _ := hplain
  have hf := finish_same sha1 ctx (w'.link H (chances 0) ctx.infoHash false) (connect (w'.link H (chances 0) ctx.infoHash false) ctx false)
  rw [e1, e2]
  refine ⟨hf.1, hf.2, ?_, ?_⟩
  · generalize connect (w'.link H (chances 0) ctx.infoHash false) ctx false = r
    obtain ⟨c, r⟩ := r
    cases r <;> rfl
  · generalize connect (w'.link H (chances 0) ctx.infoHash false) ctx false = r
    obtain ⟨c, r⟩ := r
    cases r <;> rfl

/-! ### The hypotheses can be met: the peer of `exLink`, behind encryption -/

section examples

/-- Our private key is 5; reads have room for 3 bytes. -/
def exChances : Chances := ⟨5, [1, 2, 3], 4, fun _ => 3, 1000, 30⟩

def exSecret : Bytes := secretOf 5 (biguint2bytes (modpow 2 7 primeModulus))

/-- What the peer with private key 7 sends behind its public key, in two pieces. -/
def exReply : Bytes := xorAt (mseStream (sha1 (keyBText ++ exSecret ++ exHash.bytes))) 0
  (List.replicate 8 0 ++ [0, 0, 0, 2] ++ [0, 2] ++ [4, 5] ++ exLink.incoming)

theorem exReply_length : 20 < exReply.length := by
  have : 5 ≤ exLink.incoming.length := by decide +kernel
  rw [exReply, xorAt_length]
  simp
  omega

def exRaw : RawLink :=
  ⟨.ok, responderReads [biguint2bytes (modpow 2 7 primeModulus), [9]] [exReply.take 20, exReply.drop 20] [], fun _ => .ok⟩

theorem exResponder : Responder sha1 exHash.bytes 7 exSecret [9] [4, 5] exLink.incoming
    [biguint2bytes (modpow 2 7 primeModulus), [9]] [exReply.take 20, exReply.drop 20] := by
  have hl := exReply_length
  refine ⟨⟨_, sent_exactly 2 7, by simp⟩, by decide, ⟨[0, 0, 0, 2], [0, 2], rfl, by decide, rfl, by decide, by simp [exReply]⟩, ?_, ?_⟩
  · have := (sent_exactly 2 7).1
    intro h
    simp only [List.mem_cons, List.not_mem_nil, or_false] at h
    rcases h with h | h
    · rw [← h] at this; simp at this
    · cases h
  · intro h
    simp only [List.mem_cons, List.not_mem_nil, or_false] at h
    rcases h with h | h
    · have := congrArg List.length h; simp at this; omega
    · have := congrArg List.length h; simp at this; omega

theorem exSecret_ok : Sent96 ((2 ^ exChances.privateKey % msePrime) ^ 7 % msePrime) exSecret := by
  have h := secretOf_sent 5 (biguint2bytes (modpow 2 7 primeModulus))
  have hB := sent_exactly 2 7
  rw [List.take_of_length_le (by rw [hB.1]; decide)] at h
  have := (key_agreement 5 7 _ _ exSecret (sent_exactly 2 5) hB).1 h
  rwa [(sent_exactly 2 5).2] at this

theorem exPlain : (⟨.ok, [exLink.incoming].map .data ++ [], fun _ => .ok⟩ : RawLink).link sha1 exChances exHash false =
    { exLink with crypto := .ok } := by
  unfold RawLink.link
  rw [if_neg (by decide), restOf_data _ (by decide +kernel)]
  simp [restOf, exLink]

/-- Encryption is required, and the metadata is got through it. -/
theorem exEncrypted_run : (wireRun (fun _ => List.replicate 20 7) sha1 (fun _ => exChances) (fun _ => exRaw) exCtx none .always true).2 =
    .ok ⟨exHash, ascii "de"⟩ := by
  have h := (encrypted_run (fun _ => List.replicate 20 7) sha1 sha1_length (fun _ => exChances) (fun _ => Nat.zero_lt_succ 2) (fun _ => exRaw)
    ⟨.ok, [exLink.incoming].map .data ++ [], fun _ => .ok⟩ exCtx none .always .never true (.inl rfl) 7 exSecret [9] [4, 5] exLink.incoming
    _ _ [exLink.incoming] [] .stall exSecret_ok exResponder rfl rfl rfl rfl (by decide) (by simp) (by decide) rfl).1
  rw [h]
  have hp : wireRun (fun _ => List.replicate 20 7) sha1 (fun _ => exChances) (fun _ => ⟨.ok, [exLink.incoming].map .data ++ [], fun _ => .ok⟩)
      exCtx (some .plain) .never false = finishRun (fun _ => List.replicate 20 7) exCtx [] { exLink with crypto := .ok } false
        (connect { exLink with crypto := .ok } exCtx false) := by
    rw [← exPlain]; rfl
  rw [hp]
  have ha : Agreed { exLink with crypto := .ok } exCtx false exTheirs exGreeting 3 (exRest ++ []) := by
    refine ⟨_, exGreetingBytes, ⟨⟨⟨rfl, by intro h; cases h⟩, rfl, exTheirs.encode, rfl, (handshake_encode_spec _).2⟩, rfl,
      by decide, rfl⟩, ⟨_, .cons (isHeader_beBytes _ (by decide)) (by decide) .nil, ?_⟩, exGreeting_ok, ⟨_, rfl, by decide⟩,
      by decide⟩
    simp
  exact visit_complete (fun _ => List.replicate 20 7) [] { exLink with crypto := .ok } exCtx false exTheirs exGreeting 3 [exDataBytes]
    exRest [] .pending 2 ha (fun _ => rfl) rfl (by decide)
    (by simpa [exRest] using IsFrames.cons (isHeader_beBytes _ (by decide)) (by decide) IsFrames.nil) (.inr ⟨0, .inl ⟨by decide, rfl⟩, rfl⟩)
    [data 0 2 (ascii "de")] (.cons (by decide +kernel) .nil) [ascii "de"]
    (.piece (by decide) (by decide) .done) rfl ⟨[], by decide +kernel, by simp [Canonical, SortedKeys, CanonicalDict], by decide +kernel⟩

example : ({ exRaw with sends := fun _ => .fail }.link sha1 exChances exHash true).crypto = .fail ∧
    ({ exRaw with sends := fun _ => .hang }.link sha1 exChances exHash true).crypto = .hang := by
  decide +kernel

end examples

end Demag.Props
