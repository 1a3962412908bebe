import Verif.Spec.PeerLog
import Verif.Props.SecureLink

/-! # C98: the log of the encryption handshake -/

namespace Demag.Props

open Demag Demag.Spec

/-- How many lines of the log of a handshake that succeeds precede this state. -/
def stage : Packet4State → Nat
  | .vc => 3
  | .select => 3
  | .lenPadD _ => 4
  | .padD _ _ => 4

theorem stage_cases (sub : Packet4State) : stage sub = 3 ∨ stage sub = 4 := by cases sub <;> simp [stage]

/-- How the log of a part of packet 4 relates to what the handshake makes of it. -/
def LogsInput (p : Peer) (s : Nat) (log : List LogLine) : Except MseError (HandshakeState × Bytes) → Prop
  | .error e => s = 3 ∧ log = [] ∧ IsRejection e
  | .ok (.done _, _) => log = (secureLines p).drop s
  | .ok (.packet4 _ sub, _) => s ≤ stage sub ∧ log = ((secureLines p).take (stage sub)).drop s
  | .ok (.packet2 _, _) => False

theorem onPadD_log (p : Peer) (m : CryptoMethod) (n : Nat) (ks : Keystream) (buf : Bytes) : LogsInput p 4 (onPadDLog p n buf) (onPadD m n ks buf) := by
  simp only [onPadD, onPadDLog]
  split
  · rfl
  · exact ⟨Nat.le_refl _, rfl⟩

theorem onLenPadD_log (p : Peer) (m : CryptoMethod) (ks : Keystream) (buf : Bytes) : LogsInput p 4 (onLenPadDLog p ks buf) (onLenPadD m ks buf) := by
  simp only [onLenPadD, onLenPadDLog]
  split
  · exact ⟨Nat.le_refl _, rfl⟩
  · exact onPadD_log p m _ _ _

theorem logs_more {p : Peer} {log : List LogLine} {r : Except MseError (HandshakeState × Bytes)} (h : LogsInput p 4 log r) :
    LogsInput p 3 (.selected p .rc4 :: log) r := by
  match r, h with
  | .error e, h => exact absurd h.1 (by decide)
  | .ok (.done _, _), h => simp only [LogsInput] at h ⊢; rw [h]; rfl
  | .ok (.packet4 _ sub, _), h =>
    simp only [LogsInput] at h ⊢
    have hs : stage sub = 4 := by rcases stage_cases sub with h' | h' <;> omega
    rw [h.2, hs]; exact ⟨by decide, rfl⟩

theorem onSelect_log (p : Peer) (ks : Keystream) (buf : Bytes) : LogsInput p 3 (onSelectLog p 2 ks buf) (onSelect 2 ks buf) := by
  simp only [onSelect, onSelectLog]
  split
  · exact ⟨Nat.le_refl _, rfl⟩
  · split
    · exact ⟨rfl, rfl, trivial⟩
    · generalize CryptoMethod.ofCode (BitVec.ofNat 32 (beAccum (ks.decode (List.take 4 buf)).1)) = o
      cases o with
      | none => exact ⟨rfl, rfl, trivial⟩
      | some m =>
        cases m with
        | rc4 => exact logs_more (onLenPadD_log p _ _ _)
        | plaintext => exact ⟨rfl, rfl, trivial⟩

theorem packet4_log (p : Peer) (ks : Keystream) (sub : Packet4State) (buf : Bytes) :
    LogsInput p (stage sub) (packet4Log p 2 ks sub buf) (packet4Loop 2 ks sub buf) := by
  cases sub with
  | vc =>
    simp only [packet4Log, packet4Loop, onVc, onVcLog]
    split
    · exact ⟨Nat.le_refl _, rfl⟩
    · split
      · exact onSelect_log p _ _
      · exact ⟨rfl, rfl, trivial⟩
  | select => exact onSelect_log p ks buf
  | lenPadD m => exact onLenPadD_log p m ks buf
  | padD m n => exact onPadD_log p m n ks buf

/-- The rest of the handshake after packet 3 and its log. -/
def LogsRest (p : Peer) (s : Nat) (r : List Bytes × HandshakeOutcome × List HandshakeRead) (log : List LogLine) : Prop :=
  ∃ k, s ≤ k ∧ k ≤ 5 ∧ log = ((secureLines p).take k).drop s ∧ r.1 = [] ∧ (k = 5 ↔ ∃ x, r.2.1 = .ok x) ∧
    (∀ e, r.2.1 = .err e → IsRejection e → k = 3) ∧ r.2.1 ≠ .err .send ∧ ∀ n, r.2.1 ≠ .err (.packet2Len n)

theorem take_drop_append (l : List LogLine) (a b c : Nat) (h1 : a ≤ b) (h2 : b ≤ c) : (l.take b).drop a ++ (l.take c).drop b = (l.take c).drop a := by
  have : l.take b = (l.take c).take b := by rw [List.take_take, Nat.min_eq_left h2]
  rw [this]
  generalize l.take c = x
  conv_rhs => rw [← List.take_append_drop b x, List.drop_append]
  rw [List.length_take]
  by_cases h : b ≤ x.length
  · rw [Nat.min_eq_left h, Nat.sub_eq_zero_of_le h1, List.drop_zero]
  · have : x.drop b = [] := List.drop_of_length_le (by omega)
    rw [this, List.drop_nil]

theorem rest_step {p : Peer} {s t : Nat} {r log} (h : LogsRest p t r log) (hst : s ≤ t) :
    LogsRest p s r (((secureLines p).take t).drop s ++ log) := by
  obtain ⟨k, h1, h2, h3, h4, h5, h6, h7, h8⟩ := h
  exact ⟨k, by omega, h2, by rw [h3, take_drop_append _ _ _ _ hst h1], h4, h5, h6, h7, h8⟩

theorem loop4_log (H : Bytes → Bytes) (f : Nat → Bool) (p : Peer) (reads : List HandshakeRead) (n : Nat) (h : Handshaker)
    (ks : Keystream) (sub : Packet4State) (hst : h.state = .packet4 ks sub) (hp : h.provide = 2) (ho : h.output = none) (ht : h.timeout = false) :
    LogsRest p (stage sub) (handshakeLoop H f n false h reads) (handshakeLog H f p n false h reads) := by
  have hs5 : stage sub ≤ 4 := by rcases stage_cases sub with h | h <;> omega
  have hnone : ((secureLines p).take (stage sub)).drop (stage sub) = [] := by
    rw [List.drop_take, Nat.sub_self, List.take_zero]
  induction reads generalizing n h ks sub with
  | nil =>
    rw [handshakeLoop, handshakeLog, hst]
    simp only [ho, Option.isSome_none, Bool.false_and, Bool.false_eq_true, if_false, Option.toList_none]
    exact ⟨stage sub, Nat.le_refl _, by omega, hnone.symm, rfl, (by simp; omega), by simp, by simp, by simp⟩
  | cons r rs ih =>
    rw [handshakeLoop, handshakeLog, hst]
    simp only [ho, Option.isSome_none, Bool.false_and, Bool.false_eq_true, if_false, Option.toList_none, ht, Bool.or_false]
    have hend : ∀ e rest, ¬ IsRejection e → e ≠ .send → (∀ n, e ≠ .packet2Len n) → LogsRest p (stage sub) (([] : List Bytes), .err e, rest) [] := by
      intro e rest h1 h2 h3
      exact ⟨stage sub, Nat.le_refl _, by omega, hnone.symm, rfl, (by simp; omega), fun e' he' hr => by simp only [HandshakeOutcome.err.injEq] at he'; subst he'; exact absurd hr h1, by simpa using h2, by simpa using h3⟩
    cases r with
    | eof => exact hend .disconnect rs (by simp [IsRejection]) (by simp) (by simp)
    | failed => exact hend .recv rs (by simp [IsRejection]) (by simp) (by simp)
    | timeout =>
      exact ⟨stage sub, Nat.le_refl _, by omega, hnone.symm, rfl, (by simp; omega), by simp, by simp, by simp⟩
    | data b =>
      cases b with
      | nil => exact hend .disconnect rs (by simp [IsRejection]) (by simp) (by simp)
      | cons x xs =>
        have h4 := packet4_log p ks sub (h.input ++ x :: xs)
        simp only [Handshaker.handleInput, Handshaker.inputLog, hp]
        generalize hq : packet4Loop 2 ks sub (h.input ++ x :: xs) = q at h4
        match q, h4 with
        | .error e, h4 =>
          obtain ⟨e1, e2, e3⟩ := h4
          simp only [Except.map, e2, List.append_nil]
          refine ⟨stage sub, Nat.le_refl _, by omega, hnone.symm, rfl, (by simp; omega), fun e' he' hr => by omega, ?_, ?_⟩
          · intro h; cases h; exact e3
          · intro n h; cases h; exact e3
        | .ok (.packet2 k, rest), h4 => exact absurd h4 id
        | .ok (.done ks', rest), h4 =>
          simp only [Except.map, List.nil_append]
          rw [handshakeLoop, handshakeLog]
          simp only [List.append_nil]
          refine ⟨5, by omega, by omega, ?_, rfl, by simp, by simp, by simp, by simp⟩
          rw [h4]; rfl
        | .ok (.packet4 ks' sub', rest), h4 =>
          simp only [Except.map, List.nil_append]
          have hs' : stage sub' ≤ 4 := by rcases stage_cases sub' with h | h <;> omega
          have := ih n { h with output := none, timeout := false, state := .packet4 ks' sub', input := rest } ks' sub' rfl hp rfl rfl hs' (by
            rw [List.drop_take, Nat.sub_self, List.take_zero])
          rw [h4.2]
          simp only [hp] at this
          exact rest_step this h4.1

/-- A packet that is to be sent is announced and sent before anything else. -/
theorem loop_output (H : Bytes → Bytes) (f : Nat → Bool) (p : Peer) (reads : List HandshakeRead) (n : Nat) (d : Bool) (h : Handshaker) (o : Bytes)
    (ho : h.output = some o) (hf : f n = true) (hst : ∀ ks, h.state ≠ .done ks) :
    handshakeLoop H f n d h reads = (o :: (handshakeLoop H f (n + 2) (d || h.timeout) { h with output := none, timeout := false } reads).1,
      (handshakeLoop H f (n + 2) (d || h.timeout) { h with output := none, timeout := false } reads).2) ∧
    handshakeLog H f p n d h reads =
      .sendingPacket n p :: handshakeLog H f p (n + 2) (d || h.timeout) { h with output := none, timeout := false } reads := by
  generalize hs : h.state = st at hst
  · rw [handshakeLoop.eq_def H f n, handshakeLog.eq_def H f p n]
    rw [handshakeLoop.eq_def H f (n + 2), handshakeLog.eq_def H f p (n + 2)]
    cases st with
    | done ks => exact absurd rfl (hst ks)
    | packet2 a =>
      simp only [hs, ho, hf, Option.isSome_some, Option.isSome_none, if_true, Bool.not_true, Bool.and_false, Bool.false_and, Bool.false_eq_true, if_false,
        Option.toList_some, Option.toList_none, Bool.or_false]
      rcases reads with _ | ⟨⟨_ | _⟩ | _ | _ | _, rs⟩ <;> simp only [List.nil_append, and_self, List.cons_append, true_and]
      · split <;> rename_i heq <;> simp [heq]
      · split
        · split <;> rename_i heq <;> simp [heq]
        · simp
    | packet4 ks sub =>
      simp only [hs, ho, hf, Option.isSome_some, Option.isSome_none, if_true, Bool.not_true, Bool.and_false, Bool.false_and, Bool.false_eq_true, if_false,
        Option.toList_some, Option.toList_none, Bool.or_false]
      rcases reads with _ | ⟨⟨_ | _⟩ | _ | _ | _, rs⟩ <;> simp only [List.nil_append, and_self, List.cons_append, true_and]
      · split <;> rename_i heq <;> simp [heq]
      · split
        · split <;> rename_i heq <;> simp [heq]
        · simp

/-- A packet that cannot be sent is announced, and that is all. -/
theorem loop_unsent (H : Bytes → Bytes) (f : Nat → Bool) (p : Peer) (reads : List HandshakeRead) (n : Nat) (d : Bool) (h : Handshaker) (o : Bytes)
    (ho : h.output = some o) (hf : f n = false) (hst : ∀ ks, h.state ≠ .done ks) :
    handshakeLoop H f n d h reads = ([], .err .send, reads) ∧ handshakeLog H f p n d h reads = [.sendingPacket n p] := by
  rw [handshakeLoop, handshakeLog]
  cases hs : h.state with
  | done ks => exact absurd hs (hst ks)
  | packet2 a => simp [ho, hf]
  | packet4 ks sub => simp [ho, hf]

/-- The log of a handshake that waits for packet 2, from line `s` on. -/
def LogsAll (p : Peer) (s : Nat) (packets : List Bytes) (outcome : HandshakeOutcome) (log : List LogLine) : Prop :=
  ∃ k, 1 ≤ k ∧ s ≤ k ∧ k ≤ 5 ∧ log = ((secureLines p).take k).drop s ∧
    (k = 5 ↔ ∃ x, outcome = .ok x) ∧ (k = 2 ↔ ∃ n, outcome = .err (.packet2Len n)) ∧
    (∀ e, outcome = .err e → IsRejection e → k = 3) ∧
    (outcome = .err .send → k = 2 * packets.length + 1 ∧ packets.length < 2) ∧
    (outcome ≠ .err .send → packets.length = if k ≤ 2 then 1 else 2)

theorem loop2_log (H : Bytes → Bytes) (f : Nat → Bool) (p : Peer) (reads : List HandshakeRead) (h : Handshaker) (a : Nat) (first : Bytes)
    (hst : h.state = .packet2 a) (hp : h.provide = 2) (ho : h.output = none) (ht : h.timeout = false) :
    LogsAll p 1 (first :: (handshakeLoop H f 3 true h reads).1) (handshakeLoop H f 3 true h reads).2.1 (handshakeLog H f p 3 true h reads) := by
  induction reads generalizing h with
  | nil =>
    rw [handshakeLoop, handshakeLog, hst]
    simp only [ho, Option.isSome_none, Bool.false_and, Bool.false_eq_true, if_false, Option.toList_none]
    exact ⟨1, by omega, by omega, by omega, rfl, by simp, by simp, by simp, by simp, by simp⟩
  | cons r rs ih =>
    rw [handshakeLoop, handshakeLog, hst]
    simp only [ho, Option.isSome_none, Bool.false_and, Bool.false_eq_true, if_false, Option.toList_none, Bool.true_or, if_true]
    have hend : ∀ e, ¬ IsRejection e → e ≠ .send → (∀ n, e ≠ .packet2Len n) → LogsAll p 1 [first] (.err e) [] := by
      intro e h1 h2 h3
      exact ⟨1, by omega, by omega, by omega, rfl, by simp, (by simp; exact h3), fun e' he' hr => by
        simp only [HandshakeOutcome.err.injEq] at he'; subst he'; exact absurd hr h1, (by simp; exact fun h => absurd h h2), by simp⟩
    cases r with
    | eof => exact hend .disconnect (by simp [IsRejection]) (by simp) (by simp)
    | failed => exact hend .recv (by simp [IsRejection]) (by simp) (by simp)
    | data b =>
      cases b with
      | nil => exact hend .disconnect (by simp [IsRejection]) (by simp) (by simp)
      | cons x xs =>
        simp only [Handshaker.handleInput, Handshaker.inputLog, List.nil_append]
        exact ih { h with output := none, timeout := false, state := .packet2 a, input := h.input ++ x :: xs } rfl hp rfl rfl
    | timeout =>
      have heq := handleTimeout_eq H { h with output := none, timeout := false, state := .packet2 a } a rfl
      simp only at heq
      simp only [hst]
      rw [heq]
      by_cases hl : 96 ≤ h.input.length ∧ h.input.length ≤ 608
      · rw [if_pos hl]
        simp only [List.nil_append]
        generalize hh : afterPacket3 H _ _ = h4
        have e1 : ∃ ks, h4.state = .packet4 ks .vc := ⟨_, by rw [← hh]; rfl⟩
        have e2 : ∃ o, h4.output = some o := ⟨_, by rw [← hh]; rfl⟩
        have e3 : h4.provide = 2 := by rw [← hh]; exact hp
        have e4 : h4.timeout = false := by rw [← hh]; rfl
        clear hh
        obtain ⟨ks, e1⟩ := e1
        obtain ⟨o, e2⟩ := e2
        have e5 : ∀ ks, h4.state ≠ .done ks := by simp [e1]
        by_cases hf : f 3 = true
        · obtain ⟨g1, g2⟩ := loop_output H f p rs 3 false h4 o e2 hf e5
          rw [g1, g2, e4]
          obtain ⟨k, k1, k2, k3, k4, k5, k6, k7, k8⟩ := loop4_log H f p rs (3 + 2) { h4 with output := none, timeout := false } ks .vc e1 e3 rfl rfl
          simp only [stage] at k1
          simp only [Bool.false_or]
          rw [k3, k4]
          refine ⟨k, by omega, by omega, k2, ?_, k5, ?_, k6, fun h => absurd h k7, fun _ => ?_⟩
          · rw [← take_drop_append (secureLines p) 1 3 k (by omega) (by omega)]; rfl
          · exact ⟨fun h => by omega, fun ⟨n, h⟩ => absurd h (k8 n)⟩
          · rw [if_neg (by omega)]; rfl
        · obtain ⟨g1, g2⟩ := loop_unsent H f p rs 3 false h4 o e2 (by simpa using hf) e5
          rw [g1, g2]
          exact ⟨3, by omega, by omega, by omega, rfl, by simp, by simp, by simp, by simp, by simp⟩
      · rw [if_neg hl]
        exact ⟨2, by omega, by omega, by omega, rfl, by simp, by simp, by simp [IsRejection], by simp, by simp⟩

/-- C98: the log of the encryption handshake tells how far it went. -/
theorem secure_log (H : Bytes → Bytes) (p : Peer) (c : Chances) (w : RawLink) (skey : InfoHash) (h : w.overflows c = false) :
    SecureTold p (w.secure H c skey).1 (w.secure H c skey).2.1 (w.secureLog H p c skey) := by
  simp only [RawLink.secure, RawLink.secureLog, h, Bool.false_eq_true, if_false]
  generalize hb : Handshaker.build skey c.privateKey c.padA c.padcLen = b
  have e1 : ∃ a, b.state = .packet2 a := ⟨_, by rw [← hb]; rfl⟩
  have e2 : ∃ o, b.output = some o := ⟨_, by rw [← hb]; rfl⟩
  have e3 : b.provide = 2 := by rw [← hb]; rfl
  have e4 : b.timeout = true := by rw [← hb]; rfl
  clear hb
  obtain ⟨a, e1⟩ := e1
  obtain ⟨o, e2⟩ := e2
  have e5 : ∀ ks, b.state ≠ .done ks := by simp [e1]
  by_cases hf : decide (w.sends (1 / 2) = .ok) = true
  · obtain ⟨g1, g2⟩ := loop_output H (fun n => decide (w.sends (n / 2) = .ok)) p w.reads 1 false b o e2 hf e5
    rw [g1, g2, e4]
    obtain ⟨k, k1, k2, k3, k4, k5, k6, k7, k8, k9⟩ :=
      loop2_log H (fun n => decide (w.sends (n / 2) = .ok)) p w.reads { b with output := none, timeout := false } a o e1 e3 rfl rfl
    simp only [Bool.false_or]
    refine ⟨k, k1, k3, ?_, k5, k6, k7, k8, k9⟩
    show _ :: handshakeLog H _ p 3 true _ _ = _
    rw [k4]
    have := take_drop_append (secureLines p) 0 1 k (by omega) (by omega)
    simp only [List.drop_zero] at this
    rw [← this]; rfl
  · obtain ⟨g1, g2⟩ := loop_unsent H (fun n => decide (w.sends (n / 2) = .ok)) p w.reads 1 false b o e2 (by simpa using hf) e5
    rw [g1, g2]
    exact ⟨1, by omega, by omega, rfl, by simp, by simp, by simp [IsRejection], by simp, by simp⟩

/-! ### When a method is selected -/

/-- The line up to which the log goes when packet 4 has come thus far. -/
def reached : Except MseError (HandshakeState × Bytes) → Nat
  | .ok (.done _, _) => 5
  | .ok (.packet4 _ sub, _) => stage sub
  | _ => 3

theorem loop4_reached (H : Bytes → Bytes) (f : Nat → Bool) (p : Peer) (tail : List HandshakeRead) (e : Ending) (hc : Closes tail e)
    (cs : List Bytes) (hcs : [] ∉ cs) (n : Nat) (h : Handshaker) (ks : Keystream) (sub : Packet4State) (hst : h.state = .packet4 ks sub)
    (hp : h.provide = 2) (ho : h.output = none) (ht : h.timeout = false) (hq : packet4Loop 2 ks sub h.input = .ok (.packet4 ks sub, h.input)) :
    handshakeLog H f p n false h (cs.map .data ++ tail) =
      ((secureLines p).take (reached (packet4Loop 2 ks sub (h.input ++ cs.flatten)))).drop (stage sub) := by
  induction cs generalizing n h ks sub with
  | nil =>
    simp only [List.map_nil, List.nil_append, List.flatten_nil, List.append_nil, hq, reached]
    rw [List.drop_take, Nat.sub_self, List.take_zero, handshakeLog.eq_def, hst]
    cases e <;> simp only [Closes] at hc <;> subst hc <;> simp [ho]
  | cons c cs ih =>
    obtain ⟨x, xs, rfl⟩ : ∃ x xs, c = x :: xs := by cases c <;> simp_all
    rw [List.map_cons, List.cons_append, handshakeLog, hst]
    simp only [ho, Option.isSome_none, Bool.false_and, Bool.false_eq_true, if_false, ht, Bool.or_false, Handshaker.handleInput, Handshaker.inputLog, hp]
    have h4 := packet4_log p ks sub (h.input ++ x :: xs)
    rw [List.flatten_cons, ← List.append_assoc, packet4Loop_append 2 ks sub (h.input ++ x :: xs) cs.flatten]
    generalize hr : packet4Loop 2 ks sub (h.input ++ x :: xs) = r at h4
    match r, hr, h4 with
    | .error e, hr, h4 =>
      simp only [Except.map, continueWith, reached, h4.2.1, h4.1, List.append_nil]
      rfl
    | .ok (.packet2 k, rest), hr, h4 => exact absurd h4 id
    | .ok (.done ks', rest), hr, h4 =>
      simp only [LogsInput] at h4
      simp only [Except.map, continueWith, reached, h4, List.nil_append]
      rw [handshakeLog]
      simp only [List.append_nil]
      rfl
    | .ok (.packet4 ks' sub', rest), hr, h4 =>
      simp only [LogsInput] at h4
      simp only [Except.map, continueWith, List.nil_append]
      have := ih (by simp_all) n { h with output := none, timeout := false, state := .packet4 ks' sub', input := rest } ks' sub' rfl hp rfl rfl
        (packet4Loop_stuck hr)
      simp only [hp] at this
      rw [this, h4.2]
      refine take_drop_append _ _ _ _ h4.1 ?_
      have h5 := packet4_log p ks' sub' (rest ++ cs.flatten)
      generalize packet4Loop 2 ks' sub' (rest ++ cs.flatten) = r2 at h5
      match r2, h5 with
      | .error _, h5 => simp only [reached]; rw [h5.1]; exact Nat.le_refl _
      | .ok (.packet2 _, _), h5 => exact absurd h5 id
      | .ok (.done _, _), _ => simp only [reached]; rcases stage_cases sub' with h | h <;> omega
      | .ok (.packet4 _ _, _), h5 => exact h5.1

theorem loop2_reached (H : Bytes → Bytes) (f : Nat → Bool) (p : Peer) (tail : List HandshakeRead) (cs : List Bytes) (hcs : [] ∉ cs) (h : Handshaker)
    (a : Nat) (hst : h.state = .packet2 a) (ho : h.output = none) (ht : h.timeout = false)
    (hl : 96 ≤ (h.input ++ cs.flatten).length ∧ (h.input ++ cs.flatten).length ≤ 608) :
    handshakeLog H f p 3 true h (cs.map .data ++ .timeout :: tail) = .peerStep 5 p ::
      handshakeLog H f p 3 false (afterPacket3 H (secretOf a (h.input ++ cs.flatten)) { h with input := h.input ++ cs.flatten }) tail := by
  induction cs generalizing h with
  | nil =>
    simp only [List.flatten_nil, List.append_nil] at hl ⊢
    rw [List.map_nil, List.nil_append, handshakeLog, hst]
    have heq := handleTimeout_eq H { h with output := none, timeout := false } a hst
    rw [if_pos hl] at heq
    simp only [hst] at heq
    simp only [ho, Option.isSome_none, Bool.false_and, Bool.false_eq_true, if_false, Bool.true_or, if_true, hst, heq, List.nil_append]
    congr 2
    simp only [afterPacket3, ht, ho]
  | cons c cs ih =>
    obtain ⟨x, xs, rfl⟩ : ∃ x xs, c = x :: xs := by cases c <;> simp_all
    rw [List.map_cons, List.cons_append, handshakeLog, hst]
    simp only [ho, Option.isSome_none, Bool.false_and, Bool.false_eq_true, if_false, Bool.true_or, Handshaker.handleInput, Handshaker.inputLog, hst,
      List.nil_append]
    rw [List.flatten_cons, ← List.append_assoc] at hl
    have := ih (by simp_all) { h with output := none, timeout := false, input := h.input ++ x :: xs } hst rfl rfl hl
    simp only [hst] at this
    rw [this, List.flatten_cons, ← List.append_assoc]
    simp [afterPacket3, ho, ht]

/-- What is decrypted of packet 4 confirms the key and selects the encryption. -/
theorem reached_iff (o i : Rc4) (full : Bytes) :
    4 ≤ reached (packet4Loop 2 (.rc4 o i) .vc full) ↔
      (xorAt (rc4Byte i) 0 full).take 12 = List.replicate 8 0 ++ [0, 0, 0, 2] := by
  generalize hpl : xorAt (rc4Byte i) 0 full = plain
  have hlen : plain.length = full.length := by rw [← hpl]; simp
  have hsplit : plain.take 12 = plain.take 8 ++ (plain.drop 8).take 4 := by rw [← List.take_append_drop 8 (plain.take 12)]; simp [List.take_take, List.drop_take]
  have hiff : plain.take 12 = List.replicate 8 0 ++ [0, 0, 0, 2] ↔ 12 ≤ full.length ∧ plain.take 8 = List.replicate 8 0 ∧ (plain.drop 8).take 4 = [0, 0, 0, 2] := by
    constructor
    · intro h
      have hl := congrArg List.length h
      simp at hl
      have hl' : 12 ≤ full.length := by omega
      rw [hsplit] at h
      have := List.append_inj h (by simp; omega)
      exact ⟨hl', this⟩
    · rintro ⟨h1, h2, h3⟩
      rw [hsplit, h2, h3]
  rw [hiff]
  simp only [packet4Loop]
  rw [onVc]
  by_cases h8 : full.length < 8
  · rw [if_pos h8]
    simp only [reached, stage]
    omega
  rw [if_neg h8]
  have d8 : (Keystream.rc4 o i).decode (full.take 8) = (plain.take 8, .rc4 o (rc4After i 8)) := by
    have := decode_at o i 0 8 full
    simp only [List.drop_zero, List.length_take, Nat.min_eq_left (Nat.le_of_not_lt h8), hpl] at this
    exact this
  simp only [d8]
  have hz : (plain.take 8).all (fun b => b == 0) = true ↔ plain.take 8 = List.replicate 8 0 := by
    rw [allZero_iff]
    have : (plain.take 8).length = 8 := by simp; omega
    rw [this]
  by_cases hvc : plain.take 8 = List.replicate 8 0
  case neg =>
    rw [if_neg (mt hz.1 hvc)]
    exact ⟨fun h => absurd h (by simp [reached]), fun h => absurd h.2.1 hvc⟩
  rw [if_pos (hz.2 hvc), onSelect]
  by_cases h12 : (full.drop 8).length < 4
  · rw [if_pos h12]
    simp at h12
    simp only [reached, stage]
    omega
  rw [if_neg h12]
  simp only [List.length_drop, Nat.not_lt] at h12
  have d12 : (Keystream.rc4 o (rc4After i 8)).decode ((full.drop 8).take 4) = ((plain.drop 8).take 4, .rc4 o (rc4After i 12)) := by
    have := decode_at o i 8 4 full
    simp only [List.length_take, List.length_drop, Nat.min_eq_left h12, hpl] at this
    exact this
  simp only [d12, beAccum_eq]
  have hl4 : ((plain.drop 8).take 4).length = 4 := by simp; omega
  have hv : (plain.drop 8).take 4 = [0, 0, 0, 2] ↔ beValue ((plain.drop 8).take 4) = 2 := by
    refine ⟨fun h => by rw [h]; decide, fun h => ?_⟩
    exact beValue_inj (by rw [hl4]; rfl) (by rw [h]; decide)
  have hv32 : beValue ((plain.drop 8).take 4) < 2 ^ 32 := by
    have := beValue_lt ((plain.drop 8).take 4)
    rw [hl4] at this
    exact Nat.lt_of_lt_of_le this (by decide)
  rw [hv]
  generalize beValue ((plain.drop 8).take 4) = v at hv32
  have hrest : 12 ≤ full.length ∧ plain.take 8 = List.replicate 8 0 ∧ v = 2 ↔ v = 2 := ⟨fun h => h.2.2, fun h => ⟨by omega, hvc, h⟩⟩
  rw [hrest]
  rw [countOnes_eq]
  by_cases h1 : oneBits v = 1
  case neg =>
    rw [if_pos h1]
    simp only [reached]
    exact ⟨fun h => by omega, fun h => by subst h; exact absurd (by decide) h1⟩
  rw [if_neg (fun h => h h1)]
  cases hc : CryptoMethod.ofCode (BitVec.ofNat 32 v) with
  | none =>
    simp only [reached]
    refine ⟨fun h => by omega, fun h => ?_⟩
    subst h; exact absurd hc (by decide)
  | some m =>
    have hm := (ofCode_eq v hv32 m).1 hc
    cases m with
    | plaintext =>
      have : v = 1 := hm
      subst this
      exact ⟨fun h => absurd h (by simp [reached, methodSetContains, CryptoMethod.code]), fun h => absurd h (by decide)⟩
    | rc4 =>
      have : v = 2 := hm
      subst this
      simp only [iff_true]
      rw [if_pos (by decide)]
      have h4 := onLenPadD_log ⟨.v4 ⟨⟨0⟩, 0⟩, none, false⟩ .rc4 (.rc4 o (rc4After i 12)) ((full.drop 8).drop 4)
      generalize onLenPadD .rc4 (.rc4 o (rc4After i 12)) ((full.drop 8).drop 4) = r at h4
      match r, h4 with
      | .error _, h4 => exact absurd h4.1 (by decide)
      | .ok (.packet2 _, _), h4 => exact absurd h4 id
      | .ok (.done _, _), _ => simp [reached]
      | .ok (.packet4 _ _, _), h4 => exact h4.1

/-- C98: the log says that encryption is selected exactly when what the peer has sent after packet 2, decrypted, confirms the key and selects
RC4. -/
theorem selected_iff (H : Bytes → Bytes) (p : Peer) (c : Chances) (w : RawLink) (skey : InfoHash) (h : w.overflows c = false)
    (c1 c2 : List Bytes) (h1 : [] ∉ c1) (h2 : [] ∉ c2) (tail : List HandshakeRead) (e : Ending) (hc : Closes tail e)
    (hr : w.reads = c1.map .data ++ .timeout :: (c2.map .data ++ tail)) (hs : w.sends 0 = .ok ∧ w.sends 1 = .ok)
    (hl : 96 ≤ c1.flatten.length ∧ c1.flatten.length ≤ 608) (S : Bytes)
    (hS : Sent96 (beValue (c1.flatten.take 96) ^ c.privateKey % msePrime) S) :
    .selected p .rc4 ∈ w.secureLog H p c skey ↔
      (xorAt (mseStream (H (keyBText ++ S ++ skey.bytes))) 0 c2.flatten).take 12 = List.replicate 8 0 ++ [0, 0, 0, 2] := by
  have hS' : S = secretOf c.privateKey c1.flatten := sent96_inj hS (secretOf_sent _ _)
  have kB : keyBText = ascii "keyB" := by decide
  rw [← freshRc4_byte, kB, hS', ← reached_iff
    (rc4After (freshRc4 (H (ascii "keyA" ++ secretOf c.privateKey c1.flatten ++ skey.bytes))) (16 + c.padcLen.toNat))]
  have hlog : w.secureLog H p c skey = (secureLines p).take (reached (packet4Loop 2 (.rc4
      (rc4After (freshRc4 (H (ascii "keyA" ++ secretOf c.privateKey c1.flatten ++ skey.bytes))) (16 + c.padcLen.toNat))
      (freshRc4 (H (ascii "keyB" ++ secretOf c.privateKey c1.flatten ++ skey.bytes)))) .vc c2.flatten)) := by
    simp only [RawLink.secureLog, h, Bool.false_eq_true, if_false, hr]
    obtain ⟨-, g2⟩ := loop_output H (fun n => decide (w.sends (n / 2) = .ok)) p (c1.map .data ++ .timeout :: (c2.map .data ++ tail)) 1 false
      (Handshaker.build skey c.privateKey c.padA c.padcLen) _ rfl (by simp [hs.1]) (by simp [Handshaker.build])
    rw [g2]
    have g3 := loop2_reached H (fun n => decide (w.sends (n / 2) = .ok)) p (c2.map .data ++ tail) c1 h1
      { Handshaker.build skey c.privateKey c.padA c.padcLen with output := none, timeout := false } c.privateKey rfl rfl rfl
      (by simpa [Handshaker.build] using hl)
    simp only [Handshaker.build, Bool.false_or] at g3 ⊢
    rw [g3]
    simp only [List.nil_append]
    generalize ha : afterPacket3 H _ _ = h4
    have e1 : h4.state = .packet4 (.rc4 (rc4After (freshRc4 (H (ascii "keyA" ++ secretOf c.privateKey c1.flatten ++ skey.bytes))) (16 + c.padcLen.toNat))
      (freshRc4 (H (ascii "keyB" ++ secretOf c.privateKey c1.flatten ++ skey.bytes)))) .vc := by rw [← ha]; rfl
    have e2 : h4.provide = 2 := by rw [← ha]; rfl
    have e3 : h4.timeout = false := by rw [← ha]; rfl
    have e4 : h4.input = [] := by rw [← ha]; rfl
    obtain ⟨-, g4⟩ := loop_output H (fun n => decide (w.sends (n / 2) = .ok)) p (c2.map .data ++ tail) 3 false h4 _
      (by rw [← ha]; rfl) (by simp [hs.2]) (by rw [← ha]; simp [afterPacket3])
    have g5 := loop4_reached H (fun n => decide (w.sends (n / 2) = .ok)) p tail e hc c2 h2 5 { h4 with output := none, timeout := false } _ _ e1 e2 rfl rfl
      (by rw [e4]; rfl)
    rw [g4, e3]
    simp only [Bool.false_or]
    simp only [e4] at g5 ⊢
    rw [g5]
    simp only [List.nil_append]
    have h4 := packet4_log p (.rc4 (rc4After (freshRc4 (H (ascii "keyA" ++ secretOf c.privateKey c1.flatten ++ skey.bytes))) (16 + c.padcLen.toNat))
      (freshRc4 (H (ascii "keyB" ++ secretOf c.privateKey c1.flatten ++ skey.bytes)))) .vc c2.flatten
    generalize packet4Loop 2 _ .vc c2.flatten = r at h4
    have h3 : 3 ≤ reached r := by
      match r, h4 with
      | .error _, h4 => simp [reached]
      | .ok (.packet2 _, _), h4 => exact absurd h4 id
      | .ok (.done _, _), _ => simp [reached]
      | .ok (.packet4 _ _, _), h4 => exact h4.1
    have := take_drop_append (secureLines p) 0 3 (reached r) (by omega) h3
    simp only [List.drop_zero] at this
    rw [← this]; rfl
  rw [hlog]
  generalize reached _ = k
  simp only [secureLines]
  match k with
  | 0 => simp
  | 1 => simp
  | 2 => simp
  | 3 => simp
  | k + 4 => simp

end Demag.Props
