import Verif.Spec.Framing
import Verif.Model.Framing
import Verif.Lemmas.Wire

/-!
# C07: message framing
-/

namespace Demag.Props

open Demag Spec

theorem isHeader_beBytes (n : Nat) (h : n < 2 ^ 32) : IsHeader n (beBytes 4 n) :=
  ⟨beBytes_length 4 n, by rw [beValue_beBytes]; exact Nat.mod_eq_of_lt h⟩

theorem isHeader_eq {n : Nat} {h : Bytes} (hh : IsHeader n h) : h = beBytes 4 n := by
  have := beBytes_beValue h
  rw [hh.1, hh.2] at this
  exact this.symm

/-- What the codec still has to decode. -/
def virt (c : Codec) : Bytes := (match c.state with | none => [] | some n => beBytes 4 n) ++ c.buf

/-- The codec's pending length is admissible. -/
def Okc (c : Codec) : Prop := ∀ n, c.state = some n → n ≤ 65535

theorem okc_none {c : Codec} (h : c.state = none) : Okc c := fun n hn => by rw [h] at hn; cases hn

theorem beBytes4_inj {m n : Nat} (hm : m ≤ 65535) (hn : n < 2 ^ 32) {x y : Bytes}
    (h : beBytes 4 m ++ x = beBytes 4 n ++ y) : m = n ∧ x = y := by
  have h1 := List.append_inj h (by simp)
  refine ⟨?_, h1.2⟩
  have := congrArg beValue h1.1
  rw [beValue_beBytes, beValue_beBytes, Nat.mod_eq_of_lt (by omega), Nat.mod_eq_of_lt (by omega)] at this
  exact this

/-- Three ways a byte string can begin. -/
theorem trichotomy (v : Bytes) :
    (∃ p r, p.length ≤ 65535 ∧ v = beBytes 4 p.length ++ p ++ r) ∨ TooLong v ∨ ∃ left, Incomplete v left := by
  by_cases h4 : v.length < 4
  · exact .inr (.inr ⟨_, .inl ⟨h4, rfl⟩⟩)
  · have hsplit := (List.take_append_drop 4 v).symm
    have hl : (v.take 4).length = 4 := by rw [List.length_take]; omega
    have hh : IsHeader (beValue (v.take 4)) (v.take 4) := ⟨hl, rfl⟩
    generalize hn : beValue (v.take 4) = n at hh
    by_cases hbig : 65535 < n
    · exact .inr (.inl ⟨_, _, n, hsplit, hh, hbig⟩)
    · by_cases hx : (v.drop 4).length < n
      · exact .inr (.inr ⟨_, .inr ⟨_, _, n, hsplit, hh, by omega, hx, rfl⟩⟩)
      · left
        have hlen : ((v.drop 4).take n).length = n := by rw [List.length_take]; omega
        refine ⟨(v.drop 4).take n, (v.drop 4).drop n, by omega, ?_⟩
        rw [hlen, ← isHeader_eq hh, List.append_assoc, List.take_append_drop, List.take_append_drop]

/-- Decoding from a buffer without further input. -/
theorem decode_spec (c : Codec) (hc : Okc c) :
    (∀ b c', c.decode = (c', .frame b) → b.length ≤ 65535 ∧ c'.state = none ∧ virt c = beBytes 4 b.length ++ b ++ c'.buf) ∧
    (∀ c', c.decode = (c', .tooBig) → TooLong (virt c)) ∧
    (∀ c', c.decode = (c', .needMore) → Okc c' ∧ virt c' = virt c ∧ Incomplete (virt c) c'.buf.length) := by
  have hdata : ∀ (buf : Bytes) (n : Nat), n ≤ 65535 → virt c = beBytes 4 n ++ buf →
      (∀ b c', Codec.decodeData buf n = (c', .frame b) →
        b.length ≤ 65535 ∧ c'.state = none ∧ virt c = beBytes 4 b.length ++ b ++ c'.buf) ∧
      (∀ c', Codec.decodeData buf n = (c', .tooBig) → TooLong (virt c)) ∧
      (∀ c', Codec.decodeData buf n = (c', .needMore) → Okc c' ∧ virt c' = virt c ∧ Incomplete (virt c) c'.buf.length) := by
    intro buf n hn hv
    unfold Codec.decodeData
    by_cases hl : buf.length < n
    · rw [if_pos hl]
      refine ⟨by simp, by simp, ?_⟩
      rintro c' h
      cases h
      refine ⟨by intro m hm; cases hm; exact hn, by rw [hv]; rfl, ?_⟩
      exact .inr ⟨_, _, n, hv, isHeader_beBytes n (by omega), hn, hl, rfl⟩
    · rw [if_neg hl]
      refine ⟨?_, by simp, by simp⟩
      rintro b c' h
      cases h
      have : (buf.take n).length = n := by rw [List.length_take]; omega
      refine ⟨by omega, rfl, ?_⟩
      rw [this, hv, List.append_assoc, List.take_append_drop]
  unfold Codec.decode
  cases hs : c.state with
  | some n => exact hdata c.buf n (hc n hs) (by simp [virt, hs])
  | none =>
    have hv : virt c = c.buf := by simp [virt, hs]
    simp only
    by_cases h4 : c.buf.length < 4
    · rw [if_pos h4]
      refine ⟨by simp, by simp, ?_⟩
      rintro c' h
      cases h
      exact ⟨hc, rfl, .inl ⟨by rw [hv]; exact h4, by rw [hv]⟩⟩
    · rw [if_neg h4]
      have hl : (c.buf.take 4).length = 4 := by rw [List.length_take]; omega
      have hh : IsHeader (beAccum (c.buf.take 4)) (c.buf.take 4) := ⟨hl, by rw [beAccum_eq]⟩
      have hsplit := (List.take_append_drop 4 c.buf).symm
      have hM : maxPeerMsgLen = 65535 := rfl
      rw [hM]
      by_cases hbig : beAccum (c.buf.take 4) > 65535
      · rw [if_pos hbig]
        refine ⟨by simp, ?_, by simp⟩
        intro c' _
        exact ⟨_, _, _, hv.trans hsplit, hh, hbig⟩
      · rw [if_neg hbig]
        apply hdata _ _ (by omega)
        rw [← isHeader_eq hh, List.take_append_drop, hv]

theorem incomplete_of_append {t x : Bytes} {l : Nat} (h : Incomplete (t ++ x) l) : ∃ l', Incomplete t l' := by
  by_cases h4 : t.length < 4
  · exact ⟨_, .inl ⟨h4, rfl⟩⟩
  · rcases h with ⟨h, -⟩ | ⟨hd, y, n, he, hh, hn, hy, -⟩
    · simp at h; omega
    · refine ⟨(t.drop 4).length, .inr ⟨hd, t.drop 4, n, ?_, hh, hn, ?_, rfl⟩⟩
      · have h1 : hd = t.take 4 := by
          have := congrArg (List.take 4) he
          rw [List.take_append_of_le_length (by omega), List.take_append_of_le_length (by rw [hh.1]; omega)] at this
          rw [this, List.take_of_length_le (by rw [hh.1]; omega)]
        rw [h1, List.take_append_drop]
      · have := congrArg List.length he
        simp [hh.1] at this
        simp; omega

theorem frame_not_tooLong {p r : Bytes} (hp : p.length ≤ 65535) : ¬ TooLong (beBytes 4 p.length ++ p ++ r) := by
  rintro ⟨h, x, n, he, hh, hn⟩
  have hlt : n < 2 ^ 32 := by
    have : beValue h = n := hh.2
    rw [← this]
    have h2 := beBytes_beValue h
    have h3 := beValue_beBytes h.length (beValue h)
    rw [h2] at h3
    rw [h3, hh.1]
    exact Nat.mod_lt _ (by decide)
  rw [isHeader_eq hh, List.append_assoc] at he
  have := beBytes4_inj hp hlt he
  omega

theorem frame_not_incomplete {p r : Bytes} {l : Nat} (hp : p.length ≤ 65535) :
    ¬ Incomplete (beBytes 4 p.length ++ p ++ r) l := by
  rintro (⟨h, -⟩ | ⟨h, x, n, he, hh, hn, hx, -⟩)
  · simp at h; omega
  · rw [isHeader_eq hh, List.append_assoc] at he
    have := beBytes4_inj hp (by omega) he
    have h2 := congrArg List.length this.2
    simp at h2; omega

theorem incomplete_not_tooLong {t : Bytes} {l : Nat} (hi : Incomplete t l) : ¬ TooLong t := by
  rintro ⟨h, x, n, he, hh, hn⟩
  rcases hi with ⟨h4, -⟩ | ⟨h', x', n', he', hh', hn', -, -⟩
  · rw [he] at h4; simp [hh.1] at h4; omega
  · rw [he] at he'
    have h1 := List.append_inj he' (by rw [hh.1, hh'.1])
    have : n = n' := by rw [← hh.2, ← hh'.2, h1.1]
    omega

theorem incomplete_left {t : Bytes} {l l' : Nat} (h : Incomplete t l) (h' : Incomplete t l') : l = l' := by
  rcases h with ⟨h4, rfl⟩ | ⟨hd, x, n, he, hh, hn, hx, rfl⟩
  · rcases h' with ⟨-, rfl⟩ | ⟨hd, x, n, he, hh, hn, hx, rfl⟩
    · rfl
    · rw [he] at h4; simp [hh.1] at h4; omega
  · rcases h' with ⟨h4, rfl⟩ | ⟨hd', x', n', he', hh', hn', hx', rfl⟩
    · rw [he] at h4; simp [hh.1] at h4; omega
    · rw [he] at he'
      rw [(List.append_inj he' (by rw [hh.1, hh'.1])).2]

theorem tooLong_append {t x : Bytes} (h : TooLong t) : TooLong (t ++ x) := by
  obtain ⟨h, y, n, rfl, hh, hn⟩ := h
  exact ⟨h, y ++ x, n, by simp, hh, hn⟩

/-- Waiting for one frame: the result depends only on what is still to come, not on how it is cut into reads. -/
theorem next_spec (ending : Ending) (c : Codec) (hc : Okc c) (reads : List Bytes) (hr : ∀ r ∈ reads, r ≠ []) :
    (∀ p rest, p.length ≤ 65535 → virt c ++ reads.flatten = beBytes 4 p.length ++ p ++ rest →
      ∃ c' reads', Codec.next ending c reads = .frame p c' reads' ∧ Okc c' ∧ (∀ r ∈ reads', r ≠ []) ∧
        virt c' ++ reads'.flatten = rest) ∧
    (TooLong (virt c ++ reads.flatten) → Codec.next ending c reads = .stop .tooBig) ∧
    (∀ left, Incomplete (virt c ++ reads.flatten) left → Codec.next ending c reads = .stop (stopOf ending left)) := by
  induction reads generalizing c with
  | nil =>
    rw [Codec.next]
    simp only [List.flatten_nil, List.append_nil]
    obtain ⟨d1, d2, d3⟩ := decode_spec c hc
    rcases hd : c.decode with ⟨c', d⟩
    cases d with
    | frame b =>
      obtain ⟨h1, h2, h3⟩ := d1 b c' hd
      refine ⟨?_, ?_, ?_⟩
      · intro p rest hp he
        rw [h3, List.append_assoc, List.append_assoc] at he
        obtain ⟨e1, e2⟩ := beBytes4_inj h1 (by omega) he
        obtain ⟨rfl, e3⟩ := List.append_inj e2 e1
        exact ⟨c', [], rfl, okc_none h2, by simp, by simp [virt, h2, e3]⟩
      · intro ht; rw [h3] at ht; exact absurd ht (frame_not_tooLong h1)
      · intro l hi; rw [h3] at hi; exact absurd hi (frame_not_incomplete h1)
    | tooBig =>
      have h1 := d2 c' hd
      refine ⟨?_, fun _ => rfl, ?_⟩
      · intro p rest hp he; rw [he] at h1; exact absurd h1 (frame_not_tooLong hp)
      · intro l hi; exact absurd h1 (incomplete_not_tooLong hi)
    | needMore =>
      obtain ⟨h1, h2, h3⟩ := d3 c' hd
      refine ⟨?_, ?_, ?_⟩
      · intro p rest hp he; rw [he] at h3; exact absurd h3 (frame_not_incomplete hp)
      · intro ht; exact absurd ht (incomplete_not_tooLong h3)
      · intro l hi
        have := incomplete_left hi h3
        subst this
        cases ending <;> simp [stopOf, Codec.atEof, List.isEmpty_iff]
  | cons r reads ih =>
    have hne := hr r (List.mem_cons_self ..)
    have hr' : ∀ r ∈ reads, r ≠ [] := fun x hx => hr x (List.mem_cons_of_mem _ hx)
    rw [Codec.next]
    obtain ⟨d1, d2, d3⟩ := decode_spec c hc
    rcases hd : c.decode with ⟨c', d⟩
    cases d with
    | frame b =>
      obtain ⟨h1, h2, h3⟩ := d1 b c' hd
      refine ⟨?_, ?_, ?_⟩
      · intro p rest hp he
        rw [h3, List.append_assoc, List.append_assoc, List.append_assoc] at he
        obtain ⟨e1, e2⟩ := beBytes4_inj h1 (by omega) he
        obtain ⟨rfl, e3⟩ := List.append_inj e2 e1
        exact ⟨c', r :: reads, rfl, okc_none h2, hr, by simpa [virt, h2] using e3⟩
      · intro ht; rw [h3, List.append_assoc] at ht; exact absurd ht (frame_not_tooLong h1)
      · intro l hi; rw [h3, List.append_assoc] at hi; exact absurd hi (frame_not_incomplete h1)
    | tooBig =>
      have h1 := tooLong_append (x := (r :: reads).flatten) (d2 c' hd)
      refine ⟨?_, fun _ => rfl, ?_⟩
      · intro p rest hp he; rw [he] at h1; exact absurd h1 (frame_not_tooLong hp)
      · intro l hi; exact absurd h1 (incomplete_not_tooLong hi)
    | needMore =>
      obtain ⟨h1, h2, h3⟩ := d3 c' hd
      simp only [List.isEmpty_iff, hne, if_false]
      have hv : virt { c' with buf := c'.buf ++ r } ++ reads.flatten = virt c ++ (r :: reads).flatten := by
        rw [← h2]; simp [virt, List.append_assoc]
      have := ih { c' with buf := c'.buf ++ r } (fun n hn => h1 n hn) hr'
      rw [hv] at this
      exact this

/-- **C07.** Whatever way the bytes are cut into reads: if they consist of the frames `ps` followed by `t`, which is not
a complete frame, then waiting for `k` frames yields the first `k` payloads of `ps`, and if there are not so many, all
of them and then the reason why there are no more. -/
theorem recvN_spec (ending : Ending) (ps : List Bytes) (bs t : Bytes) (hf : IsFrames ps bs)
    (reads : List Bytes) (hr : ∀ r ∈ reads, r ≠ []) (hb : reads.flatten = bs ++ t) (k : Nat) :
    (TooLong t → Codec.recvN ending k .new reads = (ps.take k, if k ≤ ps.length then none else some .tooBig)) ∧
    (∀ left, Incomplete t left →
      Codec.recvN ending k .new reads = (ps.take k, if k ≤ ps.length then none else some (stopOf ending left))) := by
  suffices h : ∀ (c : Codec), Okc c → virt c ++ reads.flatten = bs ++ t →
      (TooLong t → Codec.recvN ending k c reads = (ps.take k, if k ≤ ps.length then none else some .tooBig)) ∧
      (∀ left, Incomplete t left →
        Codec.recvN ending k c reads = (ps.take k, if k ≤ ps.length then none else some (stopOf ending left))) from
    h .new (by intro n hn; cases hn) (by simpa [virt, Codec.new] using hb)
  clear hb
  induction k generalizing ps bs reads with
  | zero => intro c _ _; simp [Codec.recvN]
  | succ k ih =>
    intro c hc hv
    obtain ⟨n1, n2, n3⟩ := next_spec ending c hc reads hr
    cases hf with
    | nil =>
      simp only [List.nil_append] at hv
      rw [hv] at n2 n3
      constructor
      · intro ht; simp [Codec.recvN, n2 ht]
      · intro l hl; simp [Codec.recvN, n3 l hl]
    | @cons p ps' h bs' hh hp hf' =>
      rw [isHeader_eq hh, List.append_assoc _ bs'] at hv
      obtain ⟨c', reads', e1, e2, e3, e4⟩ := n1 p (bs' ++ t) hp hv
      have := ih ps' bs' hf' reads' e3 c' e2 e4
      constructor
      · intro ht
        simp only [Codec.recvN, e1, this.1 ht, List.take_succ_cons, List.length_cons]
        congr 1
        by_cases hk : k ≤ ps'.length
        · rw [if_pos hk, if_pos (by omega)]
        · rw [if_neg hk, if_neg (by omega)]
      · intro l hl
        simp only [Codec.recvN, e1, this.2 l hl, List.take_succ_cons, List.length_cons]
        congr 1
        by_cases hk : k ≤ ps'.length
        · rw [if_pos hk, if_pos (by omega)]
        · rw [if_neg hk, if_neg (by omega)]

/-- Every byte string is a sequence of frames followed by something that is not one. -/
theorem frames_exist (bs : Bytes) :
    ∃ ps fs t, bs = fs ++ t ∧ IsFrames ps fs ∧ (TooLong t ∨ ∃ left, Incomplete t left) := by
  suffices h : ∀ n (bs : Bytes), bs.length ≤ n → ∃ ps fs t, bs = fs ++ t ∧ IsFrames ps fs ∧ (TooLong t ∨ ∃ left, Incomplete t left) from
    h _ bs (Nat.le_refl _)
  intro n
  induction n with
  | zero =>
    intro bs hb
    exact ⟨[], [], bs, rfl, .nil, .inr ⟨_, .inl ⟨by omega, rfl⟩⟩⟩
  | succ n ih =>
    intro bs hb
    rcases trichotomy bs with ⟨p, r, hp, rfl⟩ | h | h
    · obtain ⟨ps, fs, t, rfl, hf, ht⟩ := ih r (by simp at hb; omega)
      exact ⟨p :: ps, _, t, by simp, .cons (isHeader_beBytes _ (by omega)) hp hf, ht⟩
    · exact ⟨[], [], bs, rfl, .nil, .inl h⟩
    · exact ⟨[], [], bs, rfl, .nil, .inr h⟩

/-- **C07.** The frames delivered are the same for any two ways of cutting the same bytes. -/
theorem recvN_independent (ending : Ending) (reads reads' : List Bytes) (hr : ∀ r ∈ reads, r ≠ [])
    (hr' : ∀ r ∈ reads', r ≠ []) (h : reads.flatten = reads'.flatten) (k : Nat) :
    Codec.recvN ending k .new reads = Codec.recvN ending k .new reads' := by
  obtain ⟨ps, fs, t, hb, hf, ht⟩ := frames_exist reads.flatten
  have s1 := recvN_spec ending ps fs t hf reads hr hb k
  have s2 := recvN_spec ending ps fs t hf reads' hr' (h ▸ hb) k
  rcases ht with ht | ⟨l, hl⟩
  · rw [s1.1 ht, s2.1 ht]
  · rw [s1.2 l hl, s2.2 l hl]

/-- **C07.** A payload is sent exactly if it has at most 65535 bytes, as one frame. -/
theorem frameEncode_spec (p bs : Bytes) :
    frameEncode p = some bs ↔ p.length ≤ 65535 ∧ ∃ h, IsHeader p.length h ∧ bs = h ++ p := by
  unfold frameEncode
  have hM : maxPeerMsgLen = 65535 := rfl
  rw [hM]
  by_cases h : p.length > 65535
  · rw [if_pos h]
    simp only [reduceCtorEq, false_iff]
    rintro ⟨h', -⟩
    omega
  · rw [if_neg h]
    simp only [Option.some.injEq]
    constructor
    · rintro rfl; exact ⟨by omega, _, isHeader_beBytes _ (by omega), rfl⟩
    · rintro ⟨-, hd, hh, rfl⟩; rw [isHeader_eq hh]

/-- **C07.** What one side sends, the other receives, in order, however the bytes are cut on the way. -/
theorem framing_roundtrip (ps : List Bytes) (bss : List Bytes) (hs : ps.map frameEncode = bss.map some)
    (reads : List Bytes) (hr : ∀ r ∈ reads, r ≠ []) (hb : reads.flatten = bss.flatten) :
    Codec.recvN .eof (ps.length + 1) .new reads = (ps, some .disconnect) := by
  have hf : IsFrames ps bss.flatten := by
    clear hb
    induction ps generalizing bss with
    | nil => cases bss with | nil => exact .nil | cons b bss => cases hs
    | cons p ps ih =>
      cases bss with
      | nil => cases hs
      | cons b bss =>
        simp only [List.map_cons, List.cons.injEq] at hs
        obtain ⟨h1, hd, hh, rfl⟩ := (frameEncode_spec p b).1 hs.1
        rw [List.flatten_cons]
        exact .cons hh h1 (ih bss hs.2)
  have := (recvN_spec .eof ps bss.flatten [] hf reads hr (by simpa using hb) (ps.length + 1)).2 0 (.inl ⟨by decide, rfl⟩)
  rw [this]
  rw [List.take_of_length_le (by omega), if_neg (by omega)]
  rfl

example : Codec.recvN .eof 3 .new [[0, 0], [0, 1, 7, 0, 0], [0, 0]] = ([[7], []], some .disconnect) := by decide +kernel
example : Codec.recvN .eof 3 .new [[0, 1, 0, 0]] = ([], some .tooBig) := by decide +kernel
example : IsFrames [[7], []] [0, 0, 0, 1, 7, 0, 0, 0, 0] :=
  .cons (h := [0, 0, 0, 1]) ⟨rfl, rfl⟩ (by decide) (.cons (h := [0, 0, 0, 0]) (bs := []) ⟨rfl, rfl⟩ (by decide) .nil)

end Demag.Props
