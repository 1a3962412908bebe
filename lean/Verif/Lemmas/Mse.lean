import Verif.Spec.Mse
import Verif.Lemmas.Wire

/-! Helper lemmas about encrypted connections. -/

namespace Demag

open Spec

/-! ### Keystreams -/

@[simp] theorem xorAt_length (f : Nat → UInt8) (k : Nat) (b : Bytes) : (xorAt f k b).length = b.length := by
  induction b generalizing k <;> simp_all [xorAt]

theorem xorAt_append (f : Nat → UInt8) (k : Nat) (a b : Bytes) : xorAt f k (a ++ b) = xorAt f k a ++ xorAt f (k + a.length) b := by
  induction a generalizing k with
  | nil => simp [xorAt]
  | cons x xs ih => simp [xorAt, ih, Nat.add_comm, Nat.add_left_comm]

theorem xorAt_xorAt (f : Nat → UInt8) (k : Nat) (b : Bytes) : xorAt f k (xorAt f k b) = b := by
  induction b generalizing k with
  | nil => rfl
  | cons x xs ih => simp [xorAt, ih, UInt8.xor_assoc]

theorem xorAt_take (f : Nat → UInt8) (k n : Nat) (b : Bytes) : xorAt f k (b.take n) = (xorAt f k b).take n := by
  induction b generalizing k n with
  | nil => simp [xorAt]
  | cons x xs ih => cases n <;> simp [xorAt, ih]

theorem xorAt_drop (f : Nat → UInt8) (k n : Nat) (b : Bytes) : xorAt f (k + n) (b.drop n) = (xorAt f k b).drop n := by
  induction b generalizing k n with
  | nil => simp [xorAt]
  | cons x xs ih =>
    cases n with
    | zero => simp
    | succ n => simpa [xorAt, Nat.add_comm, Nat.add_left_comm] using ih (k + 1) n

theorem xorAt_shift (f : Nat → UInt8) (d k : Nat) (b : Bytes) : xorAt (fun i => f (d + i)) k b = xorAt f (d + k) b := by
  induction b generalizing k with
  | nil => rfl
  | cons x xs ih => simp [xorAt, ih, Nat.add_assoc]

theorem rc4After_add (r : Rc4) (m n : Nat) : rc4After r (m + n) = rc4After (rc4After r m) n := by
  induction n with
  | zero => rfl
  | succ n ih => simp [rc4After, ← Nat.add_assoc, ih]

theorem rc4Byte_after (r : Rc4) (m k : Nat) : rc4Byte (rc4After r m) k = rc4Byte r (m + k) := by simp [rc4Byte, rc4After_add]

theorem apply_eq (r : Rc4) (b : Bytes) : r.apply b = (xorAt (rc4Byte r) 0 b, rc4After r b.length) := by
  induction b generalizing r with
  | nil => rfl
  | cons x xs ih =>
    have h1 : rc4After r 1 = r.next.2 := rfl
    have h2 : rc4Byte r.next.2 = fun i => rc4Byte r (1 + i) := by funext i; rw [← h1, rc4Byte_after]
    have h3 : rc4After r.next.2 xs.length = rc4After r (xs.length + 1) := by rw [← h1, ← rc4After_add, Nat.add_comm]
    simp only [Rc4.apply, ih, h2, xorAt_shift, h3, xorAt, List.length_cons]
    rfl

theorem freshRc4_eq (key : Bytes) : freshRc4 key = rc4After (Rc4.new key) 1024 := by
  rw [freshRc4, apply_eq, List.length_replicate]

theorem freshRc4_byte (key : Bytes) : rc4Byte (freshRc4 key) = mseStream key := by
  funext k
  rw [freshRc4_eq, rc4Byte_after]; rfl

theorem decode_append (ks : Keystream) (a b : Bytes) :
    ks.decode (a ++ b) = ((ks.decode a).1 ++ ((ks.decode a).2.decode b).1, ((ks.decode a).2.decode b).2) := by
  cases ks with
  | plaintext => rfl
  | rc4 o i =>
    have h : rc4Byte (rc4After i a.length) = fun k => rc4Byte i (a.length + k) := by funext k; rw [rc4Byte_after]
    simp [Keystream.decode, apply_eq, xorAt_append, h, xorAt_shift, rc4After_add]

/-! ### Numbers -/

theorem modpowBits_eq (fuel base e m : Nat) (h : e < 2 ^ fuel) : modpowBits fuel base e m = base ^ e % m := by
  induction fuel generalizing base e with
  | zero =>
    have : e = 0 := by simpa using h
    subst this; simp [modpowBits]
  | succ fuel ih =>
    have h2 : e / 2 < 2 ^ fuel := by rw [Nat.pow_succ] at h; omega
    have h3 : (base * base % m) ^ (e / 2) % m = base ^ (2 * (e / 2)) % m := by rw [← Nat.pow_mod, Nat.pow_mul, Nat.pow_two]
    simp only [modpowBits, ih _ _ h2, h3]
    split
    · rename_i ho
      have : e = 2 * (e / 2) + 1 := by omega
      conv => rhs; rw [this]
      rw [Nat.pow_succ, Nat.mul_comm (base ^ _) base]; simp [Nat.mul_mod]
    · have : e = 2 * (e / 2) := by omega
      conv => rhs; rw [this]

theorem modpow_eq (base e m : Nat) : modpow base e m = base ^ e % m := modpowBits_eq _ _ _ _ Nat.lt_log2_self

theorem beValue_snoc (b : Bytes) (x : UInt8) : beValue (b ++ [x]) = beValue b * 256 + x.toNat := by
  rw [← beAccum_eq, ← beAccum_eq]; simp [beAccum]

theorem minimalBytes_spec (fuel n : Nat) (h : n < 256 ^ fuel) (w : Nat) (hw : n < 256 ^ w) (h0 : 0 < w) :
    beValue (minimalBytes fuel n) = n ∧ (minimalBytes fuel n).length ≤ w := by
  induction fuel generalizing n w with
  | zero => simp at h; subst h; simp [minimalBytes]; rfl
  | succ fuel ih =>
    rw [minimalBytes]
    split
    · rename_i hn
      refine ⟨?_, h0⟩
      rw [← beAccum_eq]; simp [beAccum, UInt8.toNat_ofNat']; omega
    · rename_i hn
      obtain ⟨w, rfl⟩ : ∃ w', w = w' + 1 := ⟨w - 1, by omega⟩
      have hw' : 0 < w := by
        rcases Nat.eq_zero_or_pos w with rfl | h
        · simp at hw; omega
        · exact h
      have hf : n / 256 < 256 ^ fuel := by rw [Nat.pow_succ] at h; exact Nat.div_lt_of_lt_mul (by rw [Nat.mul_comm]; exact h)
      have hw2 : n / 256 < 256 ^ w := by rw [Nat.pow_succ] at hw; exact Nat.div_lt_of_lt_mul (by rw [Nat.mul_comm]; exact hw)
      have := ih (n / 256) hf w hw2 hw'
      refine ⟨?_, by simpa using this.2⟩
      rw [beValue_snoc, this.1]; simp [UInt8.toNat_ofNat']; omega

theorem toBytesBe_spec (n w : Nat) (hw : n < 256 ^ w) (h0 : 0 < w) : beValue (toBytesBe n) = n ∧ (toBytesBe n).length ≤ w := by
  refine minimalBytes_spec _ n ?_ w hw h0
  have : n < 2 ^ (n.log2 + 1) := Nat.lt_log2_self
  exact Nat.lt_of_lt_of_le this (Nat.pow_le_pow_left (by omega) _)

theorem beValue_zeros (k : Nat) (b : Bytes) : beValue (List.replicate k 0 ++ b) = beValue b := by
  rw [← beAccum_eq, ← beAccum_eq]
  induction k with
  | zero => simp
  | succ k ih => simpa [beAccum, List.replicate_succ] using ih

theorem biguint2bytes_sent (n : Nat) (h : n < 256 ^ 96) : Sent96 n (biguint2bytes n) := by
  have := toBytesBe_spec n 96 h (by omega)
  have hl : (toBytesBe n).length ≤ modulusBytes := this.2
  simp only [biguint2bytes, if_pos hl]
  refine ⟨by simp [modulusBytes] at hl ⊢; omega, ?_⟩
  rw [beValue_zeros, this.1]

theorem sent96_inj {n : Nat} {a b : Bytes} (ha : Sent96 n a) (hb : Sent96 n b) : a = b :=
  beValue_inj (by rw [ha.1, hb.1]) (by rw [ha.2, hb.2])

theorem prime_lt : primeModulus < 256 ^ 96 := by decide +kernel
theorem prime_pos : 0 < primeModulus := by decide +kernel
theorem modpow_lt (b e : Nat) : modpow b e primeModulus < 256 ^ 96 := by
  rw [modpow_eq]; exact Nat.lt_trans (Nat.mod_lt _ prime_pos) prime_lt

/-! ### Packet 4 -/

/-- To go on with more bytes. -/
def continueWith (provide : BitVec 32) (r : Except MseError (HandshakeState × Bytes)) (b : Bytes) :
    Except MseError (HandshakeState × Bytes) :=
  match r with
  | .error e => .error e
  | .ok (.packet4 ks sub, rest) => packet4Loop provide ks sub (rest ++ b)
  | .ok (st, rest) => .ok (st, rest ++ b)

theorem onPadD_append (p : BitVec 32) (m : CryptoMethod) (n : Nat) (ks : Keystream) (a b : Bytes) :
    onPadD m n ks (a ++ b) = continueWith p (onPadD m n ks a) b := by
  simp only [onPadD]
  by_cases h : n ≤ a.length
  · have h1 : min n (a ++ b).length = n := by simp; omega
    have h2 : min n a.length = n := by omega
    rw [h1, h2, List.take_append_of_le_length h, List.drop_append_of_le_length h]
    simp [continueWith]
  · have h2 : min n a.length = a.length := by omega
    have h3 : n - a.length ≠ 0 := by omega
    have h4 : min n (a ++ b).length = a.length + min (n - a.length) b.length := by simp; omega
    rw [h2, if_neg h3, h4]
    simp only [continueWith, packet4Loop, onPadD, List.take_length, List.drop_length, List.nil_append]
    rw [List.take_append, List.drop_append, List.take_of_length_le (by omega), List.drop_of_length_le (by omega)]
    have h5 : a.length + min (n - a.length) b.length - a.length = min (n - a.length) b.length := by omega
    have h6 : n - (a.length + min (n - a.length) b.length) = n - a.length - min (n - a.length) b.length := by omega
    rw [h5, h6, decode_append, List.nil_append]

theorem onLenPadD_append (p : BitVec 32) (m : CryptoMethod) (ks : Keystream) (a b : Bytes) :
    onLenPadD m ks (a ++ b) = continueWith p (onLenPadD m ks a) b := by
  by_cases h : a.length < 2
  · conv => rhs; rw [onLenPadD, if_pos h]
    rfl
  · have h' : ¬ (a ++ b).length < 2 := by simp; omega
    rw [onLenPadD, onLenPadD, if_neg h, if_neg h', List.take_append_of_le_length (by omega), List.drop_append_of_le_length (by omega)]
    exact onPadD_append p _ _ _ _ _

theorem onSelect_append (p : BitVec 32) (ks : Keystream) (a b : Bytes) :
    onSelect p ks (a ++ b) = continueWith p (onSelect p ks a) b := by
  by_cases h : a.length < 4
  · conv => rhs; rw [onSelect, if_pos h]
    rfl
  · have h' : ¬ (a ++ b).length < 4 := by simp; omega
    rw [onSelect, onSelect, if_neg h, if_neg h', List.take_append_of_le_length (by omega), List.drop_append_of_le_length (by omega)]
    simp only
    split
    · rfl
    · split
      · rfl
      · split
        · exact onLenPadD_append p _ _ _ _
        · rfl

theorem onVc_append (p : BitVec 32) (ks : Keystream) (a b : Bytes) : onVc p ks (a ++ b) = continueWith p (onVc p ks a) b := by
  by_cases h : a.length < 8
  · conv => rhs; rw [onVc, if_pos h]
    rfl
  · have h' : ¬ (a ++ b).length < 8 := by simp; omega
    rw [onVc, onVc, if_neg h, if_neg h', List.take_append_of_le_length (by omega), List.drop_append_of_le_length (by omega)]
    simp only
    split
    · exact onSelect_append p _ _ _
    · rfl

theorem packet4Loop_append (p : BitVec 32) (ks : Keystream) (sub : Packet4State) (a b : Bytes) :
    packet4Loop p ks sub (a ++ b) = continueWith p (packet4Loop p ks sub a) b := by
  cases sub with
  | vc => exact onVc_append p ks a b
  | select => exact onSelect_append p ks a b
  | lenPadD m => exact onLenPadD_append p m ks a b
  | padD m n => exact onPadD_append p m n ks a b

/-- Nothing goes back to waiting for packet 2. -/
theorem packet4Loop_ne (p : BitVec 32) (ks : Keystream) (sub : Packet4State) (a : Bytes) (k : Nat) (r : Bytes) :
    packet4Loop p ks sub a ≠ .ok (.packet2 k, r) := by
  have h1 : ∀ m n ks (a : Bytes), onPadD m n ks a ≠ .ok (.packet2 k, r) := by
    intro m n ks a; simp only [onPadD]; split <;> simp
  have h2 : ∀ m ks (a : Bytes), onLenPadD m ks a ≠ .ok (.packet2 k, r) := by
    intro m ks a; rw [onLenPadD]; split
    · simp
    · exact h1 _ _ _ _
  have h3 : ∀ ks (a : Bytes), onSelect p ks a ≠ .ok (.packet2 k, r) := by
    intro ks a; rw [onSelect]; split
    · simp
    · simp only; split
      · simp
      · split
        · simp
        · split
          · exact h2 _ _ _
          · simp
  cases sub with
  | vc =>
    simp only [packet4Loop]; rw [onVc]; split
    · simp
    · simp only; split
      · exact h3 _ _
      · simp
  | select => exact h3 _ _
  | lenPadD m => exact h2 _ _ _
  | padD m n => exact h1 _ _ _ _

/-- What the reads leave behind is waited for: no progress without input. -/
theorem packet4Loop_stuck {p : BitVec 32} {ks ks' : Keystream} {sub sub' : Packet4State} {a r : Bytes}
    (h : packet4Loop p ks sub a = .ok (.packet4 ks' sub', r)) : packet4Loop p ks' sub' r = .ok (.packet4 ks' sub', r) := by
  have := packet4Loop_append p ks sub a []
  rw [List.append_nil, h] at this
  simpa [continueWith] using this.symm

/-! ### The handshake -/

theorem loop_packet4 (H : Bytes → Bytes) (sendOk : Nat → Bool) (hs : ∀ n, sendOk n = true) (tail : List HandshakeRead)
    (cs : List Bytes) (hc : [] ∉ cs) (n : Nat) (dl : Bool) (h : Handshaker) (ks : Keystream) (sub : Packet4State)
    (hst : h.state = .packet4 ks sub) (hq : packet4Loop h.provide ks sub h.input = .ok (.packet4 ks sub, h.input)) :
    match packet4Loop h.provide ks sub (h.input ++ cs.flatten) with
    | .error e => ∃ k, handshakeLoop H sendOk n dl h (cs.map .data ++ tail) =
        (h.output.toList, .err e, (cs.drop k).map .data ++ tail)
    | .ok (.done ks', rest) => ∃ k left, left ++ (cs.drop k).flatten = rest ∧
        handshakeLoop H sendOk n dl h (cs.map .data ++ tail) =
          (h.output.toList, .ok ⟨ks', left, []⟩, (cs.drop k).map .data ++ tail)
    | .ok _ => tail = [] → handshakeLoop H sendOk n dl h (cs.map .data ++ tail) = (h.output.toList, .waiting, []) := by
  induction cs generalizing n dl h ks sub with
  | nil =>
    simp only [List.flatten_nil, List.append_nil, hq]
    rintro rfl
    rw [handshakeLoop, hst]
    simp [hs]
  | cons c cs ih =>
    obtain ⟨x, xs, rfl⟩ : ∃ x xs, c = x :: xs := by cases c <;> simp_all
    rw [List.flatten_cons, ← List.append_assoc, packet4Loop_append]
    have hstep : handshakeLoop H sendOk n dl h (((x :: xs) :: cs).map .data ++ tail) =
        match ({ h with output := none, timeout := false } : Handshaker).handleInput (x :: xs) with
        | .error e => (h.output.toList, .err e, cs.map .data ++ tail)
        | .ok h'' =>
          let r := handshakeLoop H sendOk (if h.output.isSome then n + 2 else n) (dl || h.timeout) h'' (cs.map .data ++ tail)
          (h.output.toList ++ r.1, r.2) := by
      rw [List.map_cons, List.cons_append, handshakeLoop, hst]
      simp only [hs, hst]
      simp only [Bool.not_true, Bool.and_false, Bool.false_eq_true, if_false]
      cases Handshaker.handleInput _ _ <;> rfl
    rw [hstep]
    simp only [Handshaker.handleInput, hst]
    generalize hr : packet4Loop h.provide ks sub (h.input ++ x :: xs) = r
    match r, hr with
    | .error e, hr => exact ⟨1, rfl⟩
    | .ok (.packet2 k, rest), hr => exact absurd hr (packet4Loop_ne _ _ _ _ _ _)
    | .ok (.done ks', rest), hr =>
      refine ⟨1, rest, rfl, ?_⟩
      simp only [Except.map]
      rw [handshakeLoop]
      simp
    | .ok (.packet4 ks' sub', rest), hr =>
      simp only [continueWith, Except.map]
      have := ih (by simp_all) (if h.output.isSome then n + 2 else n) (dl || h.timeout)
        { h with output := none, timeout := false, state := .packet4 ks' sub', input := rest } ks' sub' rfl (packet4Loop_stuck hr)
      simp only at this
      generalize hr2 : packet4Loop h.provide ks' sub' (rest ++ cs.flatten) = r2 at this ⊢
      match r2, hr2, this with
      | .error e, _, ⟨k, h2⟩ => exact ⟨k + 1, by rw [h2]; simp⟩
      | .ok (.done ks2, rest2), _, ⟨k, left, h3, h2⟩ => exact ⟨k + 1, left, by simpa using h3, by rw [h2]; simp⟩
      | .ok (.packet2 _, _), hr2, _ => exact absurd hr2 (packet4Loop_ne _ _ _ _ _ _)
      | .ok (.packet4 _ _, _), _, h2 => intro ht; rw [h2 ht]; simp

theorem loop_packet2 (H : Bytes → Bytes) (sendOk : Nat → Bool) (hs : ∀ n, sendOk n = true) (tail : List HandshakeRead)
    (cs : List Bytes) (hc : [] ∉ cs) (n : Nat) (dl : Bool) (h : Handshaker) (a : Nat)
    (hst : h.state = .packet2 a) (hd : (dl || h.timeout) = true) :
    ∃ n', handshakeLoop H sendOk n dl h (cs.map .data ++ .timeout :: tail) =
      match ({ h with output := none, timeout := false, input := h.input ++ cs.flatten } : Handshaker).handleTimeout H with
      | .error e => (h.output.toList, .err e, tail)
      | .ok h'' => (h.output.toList ++ (handshakeLoop H sendOk n' false h'' tail).1, (handshakeLoop H sendOk n' false h'' tail).2) := by
  induction cs generalizing n dl h with
  | nil =>
    refine ⟨if h.output.isSome then n + 2 else n, ?_⟩
    rw [List.map_nil, List.nil_append, handshakeLoop, hst]
    simp only [hs, hd, List.flatten_nil, List.append_nil]
    simp only [Bool.not_true, Bool.and_false, Bool.false_eq_true, if_false, if_true]
    cases Handshaker.handleTimeout H _ <;> rfl
  | cons c cs ih =>
    obtain ⟨x, xs, rfl⟩ : ∃ x xs, c = x :: xs := by cases c <;> simp_all
    obtain ⟨n', h2⟩ := ih (by simp_all) (if h.output.isSome then n + 2 else n) (dl || h.timeout)
      { h with output := none, timeout := false, input := h.input ++ x :: xs } (by simpa using hst) (by simp [hd])
    refine ⟨n', ?_⟩
    rw [List.map_cons, List.cons_append, handshakeLoop, hst]
    simp only [Handshaker.handleInput, hst, hs]
    simp only [Bool.not_true, Bool.and_false, Bool.false_eq_true, if_false]
    simp only [hst] at h2
    rw [h2]
    simp only [List.flatten_cons, List.append_assoc]
    cases Handshaker.handleTimeout H _ <;> simp

end Demag
