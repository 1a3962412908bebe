import Verif.Spec.LinkEnds
import Verif.Props.SecureLink

/-!
# Properties: how connections end (C33, C34)
-/

namespace Demag

open Spec

theorem packet4_own (p : BitVec 32) (ks : Keystream) (sub : Packet4State) (buf : Bytes) :
    packet4Loop p ks sub buf ≠ .error .disconnect ∧ packet4Loop p ks sub buf ≠ .error .recv := by
  have h1 : ∀ m n ks (a : Bytes), onPadD m n ks a ≠ .error .disconnect ∧ onPadD m n ks a ≠ .error .recv := by
    intro m n ks a; simp only [onPadD]; split <;> simp
  have h2 : ∀ m ks (a : Bytes), onLenPadD m ks a ≠ .error .disconnect ∧ onLenPadD m ks a ≠ .error .recv := by
    intro m ks a; rw [onLenPadD]; split
    · simp
    · exact h1 _ _ _ _
  have h3 : ∀ ks (a : Bytes), onSelect p ks a ≠ .error .disconnect ∧ onSelect p ks a ≠ .error .recv := by
    intro ks a; rw [onSelect]; split
    · simp
    · simp only
      split
      · simp
      · split
        · simp
        · split
          · exact h2 _ _ _
          · simp
  cases sub with
  | vc =>
    simp only [packet4Loop]; rw [onVc]; split
    · simp
    · simp only
      split
      · exact h3 _ _
      · simp
  | select => exact h3 _ _
  | lenPadD m => exact h2 _ _ _
  | padD m n => exact h1 _ _ _ _

theorem handleInput_own (h : Handshaker) (b : Bytes) (e : MseError) (he : h.handleInput b = .error e) : e ≠ .disconnect ∧ e ≠ .recv := by
  unfold Handshaker.handleInput at he
  split at he
  · next ks sub _ =>
    obtain ⟨h1, h2⟩ := packet4_own h.provide ks sub (h.input ++ b)
    cases hp : packet4Loop h.provide ks sub (h.input ++ b) with
    | ok r => rw [hp] at he; cases he
    | error e' =>
      rw [hp] at he h1 h2
      cases he
      exact ⟨fun h => h1 (by rw [h]), fun h => h2 (by rw [h])⟩
  · cases he

theorem handleTimeout_own (H : Bytes → Bytes) (h : Handshaker) (e : MseError) (he : h.handleTimeout H = .error e) : e ≠ .disconnect ∧ e ≠ .recv := by
  unfold Handshaker.handleTimeout at he
  split at he
  · simp only at he
    split at he
    · cases he; exact ⟨by simp, by simp⟩
    · cases he
  · cases he

/-- Ends of a handshake whose outcome is neither of those that the connection causes. -/
theorem ends_lively {rs rest : List HandshakeRead} {e : MseError} (he : e ≠ .disconnect ∧ e ≠ .recv) (used : List HandshakeRead)
    (hr : rs = used ++ rest) (hl : Lively used) : HandshakeEnds rs rest (.err e) := by
  refine ⟨used, hr, ?_⟩
  cases e <;> simp_all

theorem ends_more {rs rest : List HandshakeRead} {out : HandshakeOutcome} (r : HandshakeRead) (hr : Lively [r]) (h : HandshakeEnds rs rest out) :
    HandshakeEnds (r :: rs) rest out := by
  have more : ∀ u, Lively u → Lively (r :: u) := by
    intro u hu x hx
    rcases List.mem_cons.1 hx with rfl | hx
    · exact hr _ (by simp)
    · exact hu x hx
  obtain ⟨used, rfl, hu⟩ := h
  refine ⟨r :: used, rfl, ?_⟩
  cases out with
  | ok s => exact more _ hu
  | waiting => exact ⟨more _ hu.1, hu.2⟩
  | err e =>
    cases e with
    | disconnect =>
      obtain ⟨u, x, rfl, h1, h2⟩ := hu
      exact ⟨r :: u, x, rfl, more _ h1, h2⟩
    | recv =>
      obtain ⟨u, rfl, h1⟩ := hu
      exact ⟨r :: u, rfl, more _ h1⟩
    | packet2Len n => exact more _ hu
    | vcNotZero => exact more _ hu
    | selectNotSingle n => exact more _ hu
    | unknownMethod x => exact more _ hu
    | unexpectedSelection m => exact more _ hu
    | send => exact more _ hu

theorem lively_nil : Lively [] := fun _ h => by cases h

theorem lively_data (b : UInt8) (bs : Bytes) : Lively [.data (b :: bs)] := by
  intro r hr
  cases List.mem_singleton.1 hr
  simp

theorem lively_timeout : Lively [.timeout] := by
  intro r hr
  cases List.mem_singleton.1 hr
  simp

theorem loop_ends (H : Bytes → Bytes) (f : Nat → Bool) (reads : List HandshakeRead) : ∀ (n : Nat) (d : Bool) (h : Handshaker),
    HandshakeEnds reads (handshakeLoop H f n d h reads).2.2 (handshakeLoop H f n d h reads).2.1 := by
  induction reads with
  | nil =>
    intro n d h
    rw [handshakeLoop]
    split
    · exact ⟨[], rfl, lively_nil⟩
    · simp only
      split
      · exact ⟨[], rfl, lively_nil⟩
      · exact ⟨[], rfl, lively_nil, .inl rfl⟩
  | cons r reads ih =>
    intro n d h
    rw [handshakeLoop.eq_def]
    split
    · exact ⟨[], rfl, lively_nil⟩
    · simp only
      split
      · exact ⟨[], rfl, lively_nil⟩
      · cases r with
        | data b =>
          cases b with
          | nil => exact ⟨[.data []], rfl, [], .data [], rfl, lively_nil, .inr rfl⟩
          | cons b bs =>
            simp only
            split
            · next e he => exact ends_lively (handleInput_own _ _ _ he) [.data (b :: bs)] rfl (lively_data b bs)
            · exact ends_more _ (lively_data b bs) (ih _ _ _)
        | eof => exact ⟨[.eof], rfl, [], .eof, rfl, lively_nil, .inl rfl⟩
        | failed => exact ⟨[.failed], rfl, [], rfl, lively_nil⟩
        | timeout =>
          simp only
          split
          · split
            · next e he => exact ends_lively (handleTimeout_own _ _ _ he) [.timeout] rfl lively_timeout
            · exact ends_more _ lively_timeout (ih _ _ _)
          · exact ⟨[], rfl, lively_nil, .inr rfl⟩

theorem restOf_delivers (rs : List HandshakeRead) : Arrives rs (restOf rs).1.flatten (restOf rs).2 := by
  have more : ∀ (r : HandshakeRead) (rs : List HandshakeRead) (bs : Bytes) (e : Ending), Lively [r] → Arrives rs bs e →
      Arrives (r :: rs) (dataOf [r] ++ bs) e := by
    intro r rs bs e hr ⟨used, rest, h1, h2, h3, h4⟩
    refine ⟨r :: used, rest, by rw [h1]; rfl, ?_, ?_, h4⟩
    · intro x hx
      rcases List.mem_cons.1 hx with rfl | hx
      · exact hr _ (by simp)
      · exact h2 x hx
    · rw [h3]; simp [dataOf]
  induction rs with
  | nil => exact ⟨[], [], rfl, lively_nil, rfl, rfl⟩
  | cons r rs ih =>
    cases r with
    | eof => exact ⟨[], .eof :: rs, rfl, lively_nil, rfl, .eof, rfl, .inl rfl⟩
    | failed => exact ⟨[], .failed :: rs, rfl, lively_nil, rfl, rfl⟩
    | timeout =>
      have := more .timeout rs _ _ lively_timeout ih
      simpa [dataOf, restOf] using this
    | data b =>
      cases b with
      | nil => exact ⟨[], .data [] :: rs, rfl, lively_nil, rfl, .data [], rfl, .inr rfl⟩
      | cons b bs =>
        have := more (.data (b :: bs)) rs _ _ (lively_data b bs) ih
        simpa [dataOf, restOf] using this

namespace Props

/-- **C33.** When the connection ends or fails during the encryption handshake, the handshake reports this; it waits for more only as
long as the connection goes on; and nothing else is reported as an end of the connection. -/
theorem handshake_ends (H : Bytes → Bytes) (c : Chances) (w : RawLink) (skey : InfoHash) :
    HandshakeEnds w.reads (w.secure H c skey).2.2 (w.secure H c skey).2.1 := loop_ends _ _ _ _ _ _

/-- **C33.** What a connection that is not encrypted delivers to the program is what arrives on the network. -/
theorem plain_arrives (H : Bytes → Bytes) (c : Chances) (w : RawLink) (skey : InfoHash) :
    Arrives w.reads (w.link H c skey false).incoming (w.link H c skey false).ending := restOf_delivers w.reads

/-- **C33.** What an encrypted connection delivers is what arrives behind the handshake, decrypted; nothing of it is lost. -/
theorem encrypted_arrives (H : Bytes → Bytes) (c : Chances) (hr : ∀ k, 0 < c.rooms k) (w : RawLink) (skey : InfoHash)
    (ho : w.overflows c = false) {packets : List Bytes} {s : EncryptedStream} {rest : List HandshakeRead}
    (h : w.secure H c skey = (packets, .ok s, rest)) :
    ∃ bs, Arrives rest bs (w.link H c skey true).ending ∧
      (w.link H c skey true).incoming = xorAt (inByte s.keystream) 0 (s.readBuffer ++ bs) := by
  refine ⟨(restOf rest).1.flatten, ?_, ?_⟩
  · have : (w.link H c skey true).ending = (restOf rest).2 := by
      simp only [RawLink.link, ho, h, if_true, Bool.false_eq_true, if_false]
    rw [this]
    exact restOf_delivers rest
  · have : (w.link H c skey true).incoming =
        (s.drain c.rooms (s.readBuffer.length + (restOf rest).1.flatten.length) 0 (restOf rest).1).flatten := by
      simp only [RawLink.link, ho, h, if_true, Bool.false_eq_true, if_false]
    rw [this]
    exact drain_all c.rooms hr _ 0 s _ (restOf_ne rest) (Nat.le_refl _)

/-- Only one outcome is possible for reads that are left. -/
theorem arrives_unique {rs : List HandshakeRead} {bs bs' : List UInt8} {e e' : Ending} (h : Arrives rs bs e) (h' : Arrives rs bs' e') :
    bs = bs' ∧ e = e' := by
  induction rs generalizing bs bs' with
  | nil =>
    obtain ⟨u, r, h1, -, h3, h4⟩ := h
    obtain ⟨u', r', h1', -, h3', h4'⟩ := h'
    obtain ⟨rfl, rfl⟩ := List.append_eq_nil_iff.1 h1.symm
    obtain ⟨rfl, rfl⟩ := List.append_eq_nil_iff.1 h1'.symm
    have stall : ∀ {e : Ending}, (match e with
        | .stall => ([] : List HandshakeRead) = []
        | .eof => ∃ r, ([] : List HandshakeRead).head? = some r ∧ Closing r
        | .ioError => ([] : List HandshakeRead).head? = some .failed) → e = .stall := by
      intro e he
      cases e with
      | stall => rfl
      | eof => obtain ⟨r, hr, -⟩ := he; cases hr
      | ioError => cases he
    exact ⟨h3.trans h3'.symm, (stall h4).trans (stall h4').symm⟩
  | cons x rs ih =>
    have key : ∀ {bs : List UInt8} {e : Ending}, Arrives (x :: rs) bs e →
        ((x ≠ .eof ∧ x ≠ .failed ∧ x ≠ .data []) ∧ ∃ bs', Arrives rs bs' e ∧ bs = dataOf [x] ++ bs') ∨
        (Closing x ∧ bs = [] ∧ e = .eof) ∨ (x = .failed ∧ bs = [] ∧ e = .ioError) := by
      rintro bs e ⟨u, r, h1, h2, rfl, h4⟩
      cases u with
      | nil =>
        right
        rw [List.nil_append] at h1
        subst h1
        cases e with
        | stall => cases h4
        | eof =>
          obtain ⟨y, hy, hc⟩ := h4
          cases hy
          exact .inl ⟨hc, rfl, rfl⟩
        | ioError => cases h4; exact .inr ⟨rfl, rfl, rfl⟩
      | cons y u =>
        cases h1
        left
        refine ⟨h2 x (by simp), dataOf u, ⟨u, r, rfl, fun z hz => h2 z (by simp [hz]), rfl, h4⟩, by simp [dataOf]⟩
    rcases key h with ⟨hx, b1, d1, rfl⟩ | ⟨hc, rfl, rfl⟩ | ⟨rfl, rfl, rfl⟩ <;>
    rcases key h' with ⟨hx', b2, d2, rfl⟩ | ⟨hc', rfl, rfl⟩ | ⟨e, rfl, rfl⟩
    · obtain ⟨rfl, rfl⟩ := ih d1 d2
      exact ⟨rfl, rfl⟩
    · rcases hc' with rfl | rfl
      · exact absurd rfl hx.1
      · exact absurd rfl hx.2.2
    · exact absurd e hx.2.1
    · rcases hc with rfl | rfl
      · exact absurd rfl hx'.1
      · exact absurd rfl hx'.2.2
    · exact ⟨rfl, rfl⟩
    · rcases hc with rfl | rfl <;> cases e
    · exact absurd rfl hx'.2.1
    · rcases hc' with h | h <;> cases h
    · exact ⟨rfl, rfl⟩

/-! ### Concrete cases -/

example : Arrives [.data [1, 2], .timeout, .data [3], .data [], .data [4]] [1, 2, 3] .eof := restOf_delivers _

example : (handshakeLoop (fun b => b) (fun _ => true) 1 false (Handshaker.build ⟨List.replicate 20 0, by decide⟩ 5 [] 0) [.eof]).2 =
    (.err .disconnect, []) := by decide +kernel

end Props

end Demag
