import Verif.Model.Held
import Verif.Props.Frugal

/-!
# C80: how much is kept of what a peer sends
-/

namespace Demag.Props

open Demag Demag.Spec

/-! ### The buffer of a channel -/

theorem decodeData_kept {buf : Bytes} {n : Nat} (hn : n ≤ 65535) {c' : Codec} {d : Decoded} (h : Codec.decodeData buf n = (c', d)) :
    Okc c' ∧ c'.buf.length ≤ buf.length ∧ (d = .needMore → c'.buf.length < 65535) ∧ ∀ b, d = .frame b → b.length ≤ 65535 := by
  unfold Codec.decodeData at h
  split at h
  · cases h
    refine ⟨fun m hm => ?_, Nat.le_refl _, fun _ => ?_, fun b hb => by cases hb⟩
    · simp only [Option.some.injEq] at hm; omega
    · simp only; omega
  · cases h
    refine ⟨okc_none rfl, by simp, fun h => ?_, fun b hb => ?_⟩
    · cases h
    · cases hb; simp; omega

theorem decode_kept {c c' : Codec} {d : Decoded} (hc : Okc c) (h : c.decode = (c', d)) :
    Okc c' ∧ c'.buf.length ≤ c.buf.length ∧ (d = .needMore → c'.buf.length < 65535) ∧ ∀ b, d = .frame b → b.length ≤ 65535 := by
  unfold Codec.decode at h
  split at h
  · rename_i n hn
    exact decodeData_kept (hc n hn) h
  · rename_i hn
    split at h
    · cases h
      exact ⟨okc_none hn, Nat.le_refl _, fun _ => by omega, fun b hb => by cases hb⟩
    · simp only at h
      split at h
      · cases h
        exact ⟨okc_none hn, Nat.le_refl _, (fun h => by cases h), fun b hb => by cases hb⟩
      · rename_i hle
        have := decodeData_kept (by unfold maxPeerMsgLen at hle; omega) h
        simp only [List.length_drop] at this
        exact ⟨this.1, by omega, this.2.2⟩

theorem reaches_okc {room : Nat} {c : Codec} (h : c.Reaches room) : Okc c ∧ c.buf.length < 65535 + room ∨ Okc c ∧ c.buf = [] := by
  induction h with
  | new => exact .inr ⟨okc_none rfl, rfl⟩
  | @read c c' r _ hd hr ih =>
    have hc : Okc c := by rcases ih with h | h <;> exact h.1
    have := decode_kept hc hd
    refine .inl ⟨this.1, ?_⟩
    have := this.2.2.1 rfl
    simp only [List.length_append]; omega
  | @took c c' b _ hd ih =>
    rcases ih with h | h
    · have := decode_kept h.1 hd
      exact .inl ⟨this.1, by omega⟩
    · have := decode_kept h.1 hd
      rw [h.2] at this
      exact .inr ⟨this.1, List.length_eq_zero_iff.1 (by simpa using this.2.1)⟩

/-- **C80.** Whatever a peer sends and however it arrives: the buffer of a channel has less than 65535 bytes whenever more is waited for, so with
what one read delivers it never has 65535 bytes more than that; and a frame has at most 65535 bytes. -/
theorem channel_buffer_small {room : Nat} {c : Codec} (h : c.Reaches room) :
    c.buf.length < 65535 + room ∧
    (∀ c', c.decode = (c', .needMore) → c'.buf.length < 65535) ∧ ∀ c' b, c.decode = (c', .frame b) → b.length ≤ 65535 := by
  have hc : Okc c ∧ c.buf.length < 65535 + room := by
    rcases reaches_okc h with h | h
    · exact h
    · exact ⟨h.1, by rw [h.2]; simp; omega⟩
  exact ⟨hc.2, fun c' hd => (decode_kept hc.1 hd).2.2.1 rfl, fun c' b hd => (decode_kept hc.1 hd).2.2.2 b rfl⟩

/-- **C80.** Waiting for frames leads to no other states of the buffer. -/
theorem next_reaches (ending : Ending) {room : Nat} (reads : List Bytes) (hr : ∀ r ∈ reads, r.length ≤ room) {c : Codec} (hc : c.Reaches room)
    {b : Bytes} {c' : Codec} {reads' : List Bytes} (h : Codec.next ending c reads = .frame b c' reads') :
    c'.Reaches room ∧ b.length ≤ 65535 ∧ ∀ r ∈ reads', r.length ≤ room := by
  induction reads generalizing c with
  | nil =>
    unfold Codec.next at h
    split at h
    · rename_i hd
      cases h
      exact ⟨.took hc hd, (channel_buffer_small hc).2.2 _ _ hd, hr⟩
    · cases h
    · simp only at h
      split at h <;> cases h
  | cons r rs ih =>
    unfold Codec.next at h
    split at h
    · rename_i hd
      cases h
      exact ⟨.took hc hd, (channel_buffer_small hc).2.2 _ _ hd, hr⟩
    · cases h
    · rename_i hd
      simp only at h
      split at h
      · cases h
      · exact ih (fun r h => hr r (.tail _ h)) (.read hc hd (hr r (.head _))) h

/-! ### The buffer of the encryption handshake -/

theorem handshaker_kept {H : Bytes → Bytes} {room : Nat} {h : Handshaker} (hr : h.Reaches H room) :
    (∀ ks sub, h.state = .packet4 ks sub → h.input.length < 8) ∧ (∀ ks, h.state = .done ks → h.input.length < 8 + room) := by
  induction hr with
  | build => exact ⟨(fun _ _ h => by cases h), fun _ h => by cases h⟩
  | sent _ ih => exact ih
  | @input h h' b _ hnd hb hi ih =>
    unfold Handshaker.handleInput at hi
    split at hi
    · rename_i ks sub hs
      cases hp : packet4Loop h.provide ks sub (h.input ++ b) with
      | error e => rw [hp] at hi; cases hi
      | ok r =>
        obtain ⟨st, rest⟩ := r
        rw [hp] at hi; cases hi
        have := packet4_rest _ _ _ _ hp
        have h1 := ih.1 _ _ hs
        simp only [List.length_append] at this
        refine ⟨fun ks' sub' hst => this.2 (by intro k hk; simp only at hst; rw [hst] at hk; cases hk), fun _ _ => ?_⟩
        simp only; omega
    · rename_i hs
      cases hi
      exact ⟨fun ks sub hst => absurd hst (hs ks sub), fun ks hst => absurd hst (hnd ks)⟩
  | @timeout h h' _ hnd hi ih =>
    unfold Handshaker.handleTimeout at hi
    split at hi
    · simp only at hi
      split at hi
      · cases hi
      · cases hi
        exact ⟨(fun _ _ _ => by simp), fun _ h => by cases h⟩
    · cases hi; exact ih

/-- **C80 (the part that holds).** After packet 2 has been taken, the encryption handshake keeps less than 8 bytes whenever it waits for more, and
when it is complete it hands on less than 8 bytes more than one read delivers.  Missing: a bound until packet 2 has been taken, which
does not exist (`packet2_unbounded`). -/
theorem handshake_buffer_small_partial {H : Bytes → Bytes} {room : Nat} {h : Handshaker} (hr : h.Reaches H room) (h2 : ∀ a, h.state ≠ .packet2 a) :
    h.input.length < 8 + room ∧ ((∀ ks, h.state ≠ .done ks) → h.input.length < 8) := by
  have := handshaker_kept hr
  cases hs : h.state with
  | packet2 a => exact absurd hs (h2 a)
  | packet4 ks sub => have := this.1 _ _ hs; exact ⟨by omega, fun _ => this⟩
  | done ks => exact ⟨this.2 _ hs, fun hn => absurd rfl (hn ks)⟩

theorem loop_kept (H : Bytes → Bytes) (f : Nat → Bool) {room : Nat} (reads : List HandshakeRead) (hroom : ∀ b, .data b ∈ reads → b.length ≤ room)
    (n : Nat) (d : Bool) {h : Handshaker} (hr : h.Reaches H room) {s : EncryptedStream} {rest : List HandshakeRead}
    (he : (handshakeLoop H f n d h reads).2 = (.ok s, rest)) : s.readBuffer.length < 8 + room := by
  induction reads generalizing n d h with
  | nil =>
    rw [handshakeLoop.eq_def] at he
    split at he
    · rename_i ks hs; cases he; exact (handshaker_kept hr).2 ks hs
    · simp only at he
      split at he <;> cases he
  | cons x rs ih =>
    have ih := fun n d (h : Handshaker) => @ih (fun b hb => hroom b (.tail _ hb)) n d h
    rw [handshakeLoop.eq_def] at he
    split at he
    · rename_i ks hs; cases he; exact (handshaker_kept hr).2 ks hs
    · rename_i hnd
      simp only at he
      split at he
      · cases he
      · cases x with
        | data b =>
          cases b with
          | nil => cases he
          | cons y ys =>
            simp only at he
            split at he
            · cases he
            · rename_i h'' hi
              exact ih _ _ _ (.input (.sent hr) hnd (hroom _ (.head _)) hi) he
        | eof => cases he
        | failed => cases he
        | timeout =>
          simp only at he
          split at he
          · split at he
            · cases he
            · rename_i h'' hi
              exact ih _ _ _ (.timeout (.sent hr) hnd hi) he
          · cases he

/-- **C80.** What a complete encryption handshake hands on has less than 8 bytes more than one read delivers, whatever the peer did. -/
theorem handshake_left_small (H : Bytes → Bytes) (c : Chances) (w : RawLink) (skey : InfoHash) {room : Nat}
    (hroom : ∀ b, .data b ∈ w.reads → b.length ≤ room) {packets : List Bytes} {s : EncryptedStream} {rest : List HandshakeRead}
    (h : w.secure H c skey = (packets, .ok s, rest)) : s.readBuffer.length < 8 + room :=
  loop_kept H _ w.reads hroom 1 false (.build skey c.privateKey c.padA c.padcLen) (congrArg Prod.snd h)

/-- **C80 (counterexample).** Until the time for packet 2 is over, everything a peer sends is kept, however much it is: for every number of bytes there is a
peer that makes the program keep as many, and the handshake goes on. -/
theorem packet2_unbounded (H : Bytes → Bytes) (c : Chances) (skey : InfoHash) (room N : Nat) (hroom : 0 < room) :
    ∃ (reads : List Bytes) (h : Handshaker),
      (∀ r ∈ reads, r ≠ [] ∧ r.length ≤ room) ∧ h.Reaches H room ∧ h.input = reads.flatten ∧ N ≤ h.input.length ∧
      ∀ w : RawLink, w.sends 0 = .ok → w.reads = reads.map .data →
        ∃ packet1, w.secure H c skey = ([packet1], .waiting, []) := by
  have key : ∀ (k : Nat) (h : Handshaker), (∃ a, h.state = .packet2 a) → h.Reaches H room →
      ∃ h' : Handshaker, h'.Reaches H room ∧ h'.input = h.input ++ (List.replicate k [(0 : UInt8)]).flatten := by
    intro k
    induction k with
    | zero => intro h _ hr; exact ⟨h, hr, by simp⟩
    | succ k ih =>
      intro h ⟨a, hs⟩ hr
      have hi : h.handleInput [0] = .ok { h with input := h.input ++ [0] } := by
        unfold Handshaker.handleInput; rw [hs]
      obtain ⟨h', h1, h2⟩ := ih { h with input := h.input ++ [0] } ⟨a, hs⟩ (.input (b := [0]) hr (by rw [hs]; simp) hroom hi)
      refine ⟨h', h1, ?_⟩
      rw [h2]; simp [List.replicate_succ]
  obtain ⟨h, h1, h2⟩ := key N (Handshaker.build skey c.privateKey c.padA c.padcLen) ⟨_, rfl⟩ (.build skey c.privateKey c.padA c.padcLen)
  refine ⟨List.replicate N [0], h, ?_, h1, by simpa [Handshaker.build] using h2, by rw [h2]; simp [Handshaker.build], ?_⟩
  · intro r hr
    rw [List.eq_of_mem_replicate hr]; exact ⟨by simp, hroom⟩
  · intro w hw hreads
    have loop : ∀ (k n : Nat) (d : Bool) (h : Handshaker) (a : Nat), h.state = .packet2 a → h.output = none →
        handshakeLoop H (fun n => decide (w.sends (n / 2) = .ok)) n d h ((List.replicate k [(0 : UInt8)]).map .data) = ([], .waiting, []) := by
      intro k
      induction k with
      | zero => intro n d h a hs ho; simp [handshakeLoop, hs, ho]
      | succ k ih =>
        intro n d h a hs ho
        rw [List.replicate_succ, List.map_cons, handshakeLoop]
        simp only [hs, ho, Handshaker.handleInput]
        rw [ih _ _ _ a rfl rfl]
        simp
    have first : ∀ rs, rs = (List.replicate N [(0 : UInt8)]).map HandshakeRead.data →
        handshakeLoop H (fun n => decide (w.sends (n / 2) = .ok)) 1 false (Handshaker.build skey c.privateKey c.padA c.padcLen) rs =
          ([biguint2bytes (modpow 2 c.privateKey primeModulus) ++ c.padA], .waiting, []) := by
      intro rs hrs
      subst hrs
      cases N with
      | zero => simp [handshakeLoop, Handshaker.build, hw]
      | succ k =>
        rw [List.replicate_succ, List.map_cons, handshakeLoop]
        simp only [Handshaker.build, Handshaker.handleInput, hw]
        rw [loop _ _ _ _ _ rfl rfl]
        simp
    exact ⟨_, by rw [RawLink.secure]; exact first _ hreads⟩

/-! ### The hypotheses can be met -/

/-- A frame of 2 bytes arrives in two reads; after the first, 1 byte of it is kept. -/
example : (⟨[7], some 2⟩ : Codec).Reaches 5 ∧ (⟨[7, 8], some 2⟩ : Codec).Reaches 5 ∧ Codec.new.Reaches 5 := by
  have h1 : (⟨[0, 0, 0, 2, 7], none⟩ : Codec).Reaches 5 := .read (r := [0, 0, 0, 2, 7]) .new rfl (by decide)
  have h2 : (⟨[7, 8], some 2⟩ : Codec).Reaches 5 := .read (c' := ⟨[7], some 2⟩) (r := [8]) h1 (by decide +kernel) (by decide)
  have h3 : (⟨[7], some 2⟩ : Codec).Reaches 5 := .read (c' := ⟨[7], some 2⟩) (r := []) h1 (by decide +kernel) (by decide)
  exact ⟨h3, h2, .took (b := [7, 8]) h2 (by decide +kernel)⟩

/-- A handshake that waits for the end of packet 4 keeps a part of it. -/
example : ∃ h : Handshaker, h.Reaches sha1 100 ∧ (∀ a, h.state ≠ .packet2 a) ∧ (∀ ks, h.state ≠ .done ks) ∧ h.input = [1, 2, 3] := by
  have h0 : (Handshaker.build exHash 5 [] 0).Reaches sha1 100 := .build _ _ _ _
  have key : ∃ P : Bytes, P.length = 96 := ⟨List.replicate 96 1, by simp⟩
  obtain ⟨P, hP⟩ := key
  have hi : (Handshaker.build exHash 5 [] 0).handleInput P = .ok { Handshaker.build exHash 5 [] 0 with input := P } := rfl
  have h1 := Handshaker.Reaches.input h0 (by simp [Handshaker.build]) (by omega) hi
  cases ht : ({ Handshaker.build exHash 5 [] 0 with input := P } : Handshaker).handleTimeout sha1 with
  | error e =>
    simp [Handshaker.handleTimeout, Handshaker.build, minPacket2Len, maxPacket2Len, modulusBytes, hP] at ht
  | ok h2 =>
    have hs : ∃ ks, h2.state = .packet4 ks .vc ∧ h2.input = [] := by
      simp [Handshaker.handleTimeout, Handshaker.build, minPacket2Len, maxPacket2Len, modulusBytes, hP] at ht
      rw [← ht]; exact ⟨_, rfl, rfl⟩
    obtain ⟨ks, hs, hin⟩ := hs
    have h3 := Handshaker.Reaches.timeout h1 (by simp [Handshaker.build]) ht
    have hi2 : h2.handleInput [1, 2, 3] = .ok { h2 with state := .packet4 ks .vc, input := [1, 2, 3] } := by
      unfold Handshaker.handleInput
      rw [hs, hin]; rfl
    exact ⟨_, .input h3 (by simp [hs]) (by simp) hi2, by simp, by simp, rfl⟩

/-- The conversation of the examples is far below the bounds, and a peer that asks is answered with as many bytes. -/
example : (exRaw.connect = .ok ∧ 0 < exChances.rooms 0 ∧ exChances.padA.length ≤ 512 ∧ exChances.padcLen.toNat ≤ 512) ∧
    4 + ((reject 7).encode reg42).toOption.get!.length = 4 + ((request 7).encode reg42).toOption.get!.length := by
  refine ⟨⟨rfl, by decide, by decide, by decide⟩, by decide +kernel⟩

example : Modest [.sent (request 0), .received (request 7), .sent (reject 7), .received (data 0 2 [100, 101])] :=
  ⟨by decide, by decide, by decide⟩

end Demag.Props
