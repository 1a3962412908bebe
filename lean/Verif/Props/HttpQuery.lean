import Verif.Spec.TrackerHttp
import Verif.Model.TrackerHttp
import Verif.Lemmas.Decimal

/-!
# C26: the URL of an HTTP announcement
-/

namespace Demag.Props

open Demag Spec

theorem byte_ext {P : UInt8 → Prop} (h : ∀ n : Fin 256, P (UInt8.ofNat n.val)) (b : UInt8) : P b := by
  have := h ⟨b.toNat, UInt8.toNat_lt b⟩
  rwa [show UInt8.ofNat b.toNat = b from UInt8.ofNat_toNat] at this

/-- No separators in serialized bytes. -/
theorem serializeByte_clean (b : UInt8) : ∀ c ∈ serializeByte b, c ≠ '&' ∧ c ≠ '=' := by
  revert b
  apply byte_ext
  decide +kernel

/-- The three forms of a serialized byte. -/
theorem serializeByte_forms (b : UInt8) :
    (∃ c, serializeByte b = [c] ∧ c ≠ '+' ∧ c ≠ '%' ∧ utf8 [c] = [b]) ∨ (serializeByte b = ['+'] ∧ b = 32) ∨
    (∃ x y, serializeByte b = ['%', x, y] ∧ hexDigit x = some (b.toNat / 16) ∧ hexDigit y = some (b.toNat % 16)) := by
  have h1 : ∀ n : Fin 256, serializedUnchanged (UInt8.ofNat n.val) = true →
      (Char.ofNat (UInt8.ofNat n.val).toNat) ≠ '+' ∧ (Char.ofNat (UInt8.ofNat n.val).toNat) ≠ '%' ∧
      utf8 [Char.ofNat (UInt8.ofNat n.val).toNat] = [UInt8.ofNat n.val] := by decide +kernel
  have h2 : ∀ n : Fin 16, hexDigit (hexUpper n.val) = some n.val := by decide +kernel
  unfold serializeByte
  split
  · rename_i h
    exact .inl ⟨_, rfl, byte_ext (P := fun b => serializedUnchanged b = true → Char.ofNat b.toNat ≠ '+' ∧
      Char.ofNat b.toNat ≠ '%' ∧ utf8 [Char.ofNat b.toNat] = [b]) h1 b h⟩
  · split
    · rename_i h; exact .inr (.inl ⟨rfl, h⟩)
    · have := UInt8.toNat_lt b
      exact .inr (.inr ⟨_, _, rfl, h2 ⟨b.toNat / 16, by omega⟩, h2 ⟨b.toNat % 16, by omega⟩⟩)

theorem formBytes_serialize (bs : Bytes) : formBytes (byteSerialize bs) = bs := by
  unfold byteSerialize
  induction bs with
  | nil => rw [List.flatMap_nil, formBytes]
  | cons b bs ih =>
    rw [List.flatMap_cons]
    rcases serializeByte_forms b with ⟨c, h, h1, h2, h3⟩ | ⟨h, rfl⟩ | ⟨x, y, h, h1, h2⟩
    · rw [h, List.singleton_append, formBytes.eq_def]
      simp only [h1, h2, if_false, ih, h3, List.singleton_append]
    · rw [h, List.singleton_append, formBytes.eq_def]
      simp only [if_true, ih]
    · rw [h, List.cons_append, List.cons_append, List.cons_append, List.nil_append, formBytes.eq_def]
      have hne : ('%' : Char) ≠ '+' := by decide
      simp only [hne, if_false, if_true, h1, h2, ih]
      congr 1
      rw [Nat.div_add_mod, UInt8.ofNat_toNat]

theorem byteSerialize_clean (bs : Bytes) : ∀ c ∈ byteSerialize bs, c ≠ '&' ∧ c ≠ '=' := by
  intro c hc
  obtain ⟨b, -, h⟩ := List.mem_flatMap.1 hc
  exact serializeByte_clean b c h

theorem segments_ne (t : List Char) : segments t ≠ [] := by
  cases t with
  | nil => simp [segments]
  | cons c r =>
    rw [segments]
    split
    · simp
    · split <;> simp

theorem segments_append (a b : List Char) : segments (a ++ '&' :: b) = segments a ++ segments b := by
  induction a with
  | nil => simp [segments]
  | cons c r ih =>
    rw [List.cons_append, segments, segments]
    split
    · rw [ih]; rfl
    · rw [ih]
      cases h : segments r with
      | nil => exact absurd h (segments_ne r)
      | cons s ss => rfl

theorem segments_single (t : List Char) (h : '&' ∉ t) : segments t = [t] := by
  induction t with
  | nil => rfl
  | cons c r ih =>
    simp only [List.mem_cons, not_or] at h
    rw [segments, if_neg (fun e => h.1 e.symm), ih h.2]

/-- The query, as the tracker sees it, after one more parameter. -/
theorem formDecode_appendPair (q : Option Text) (name value : Bytes) :
    ∃ q', appendPair q name value = some q' ∧ formDecode q' = formDecode (q.getD []) ++ [(name, value)] := by
  refine ⟨_, rfl, ?_⟩
  generalize q.getD [] = q
  have hn := byteSerialize_clean name
  have hv := byteSerialize_clean value
  have hseg : segments (byteSerialize name ++ ['='] ++ byteSerialize value) =
      [byteSerialize name ++ ['='] ++ byteSerialize value] := by
    apply segments_single
    intro hm
    simp only [List.mem_append, List.mem_singleton] at hm
    rcases hm with (hm | hm) | hm
    · exact (hn _ hm).1 rfl
    · exact absurd hm (by decide)
    · exact (hv _ hm).1 rfl
  have hpair : formPair (byteSerialize name ++ ['='] ++ byteSerialize value) = (name, value) := by
    have h0 : '=' ∉ byteSerialize name := fun hm => (hn _ hm).2 rfl
    have key : ∀ (t r : List Char), '=' ∉ t → (t ++ '=' :: r).takeWhile (· ≠ '=') = t ∧
        (t ++ '=' :: r).dropWhile (· ≠ '=') = '=' :: r := by
      intro t r ht
      induction t with
      | nil => simp
      | cons x xs ih =>
        simp only [List.mem_cons, not_or] at ht
        have hne : x ≠ '=' := fun e => ht.1 e.symm
        have := ih ht.2
        simp only [List.cons_append, List.takeWhile_cons, List.dropWhile_cons, hne, ne_eq, not_false_eq_true, decide_true,
          if_true]
        exact ⟨by rw [this.1], this.2⟩
    unfold formPair
    rw [List.append_assoc, List.singleton_append, (key _ _ h0).1, (key _ _ h0).2, List.drop_succ_cons, List.drop_zero,
      formBytes_serialize, formBytes_serialize]
  have hnew : formDecode (byteSerialize name ++ ['='] ++ byteSerialize value) = [(name, value)] := by
    unfold formDecode
    rw [hseg, List.filter_cons_of_pos (by simp), List.filter_nil, List.map_singleton, hpair]
  cases q with
  | nil =>
    simp only [List.isEmpty_nil, if_true, List.nil_append, List.append_nil]
    rw [hnew]
    rfl
  | cons c q =>
    rw [if_neg (by simp), List.append_assoc, List.append_assoc, List.append_assoc, List.singleton_append]
    unfold formDecode at hnew ⊢
    rw [segments_append, List.filter_append, List.map_append, ← List.append_assoc, hnew]

theorem utf8_key_one : key "1" = keyBytes "1" := rfl

/-- **C26.** The query of the URL requested, decoded by the tracker, is what was in the query of the tracker's URL followed
by the parameters of the announcement in order; in particular info hash and peer id arrive as their 20 bytes, whatever those
are. -/
theorem announceQuery_decodes (q : Option Text) (a : Announcement) :
    ∃ q' ps, announceQuery q a = some q' ∧ IsAnnounceParams a ps ∧ formDecode q' = formDecode (q.getD []) ++ ps := by
  have ev : ∀ q, formDecode ((a.event.addQueryParam q).getD []) = formDecode (q.getD []) ++ eventParam a.event := by
    intro q
    unfold AnnounceEvent.addQueryParam eventParam
    cases a.event with
    | announce => simp
    | completed => obtain ⟨q', h1, h2⟩ := formDecode_appendPair q (key "event") (key "completed"); simp only [h1]; exact h2
    | started => obtain ⟨q', h1, h2⟩ := formDecode_appendPair q (key "event") (key "started"); simp only [h1]; exact h2
    | stopped => obtain ⟨q', h1, h2⟩ := formDecode_appendPair q (key "event") (key "stopped"); simp only [h1]; exact h2
  have cr : ∀ q, formDecode ((a.crypto.addQueryParam q).getD []) = formDecode (q.getD []) ++ cryptoParam a.crypto := by
    intro q
    unfold TrackerCrypto.addQueryParam cryptoParam
    cases a.crypto with
    | required => obtain ⟨q', h1, h2⟩ := formDecode_appendPair q (key "requirecrypto") (key "1"); simp only [h1]; exact h2
    | supported => obtain ⟨q', h1, h2⟩ := formDecode_appendPair q (key "supportcrypto") (key "1"); simp only [h1]; exact h2
    | plain => simp
  have ap : ∀ q n v, formDecode ((appendPair q n v).getD []) = formDecode (q.getD []) ++ [(n, v)] := by
    intro q n v
    obtain ⟨q', h1, h2⟩ := formDecode_appendPair q n v
    rw [h1]; exact h2
  have hsome : ∃ q', announceQuery q a = some q' := ⟨_, rfl⟩
  obtain ⟨q', hq'⟩ := hsome
  refine ⟨q', _, hq', ⟨_, _, _, _, _, _, decimal_isDecimal _, decimal_isDecimal _, decimal_isDecimal _, decimal_isDecimal _,
    decimal_isDecimal _, decimal_isDecimal _, rfl⟩, ?_⟩
  have : formDecode ((announceQuery q a).getD []) = formDecode q' := by rw [hq']; rfl
  rw [← this]
  unfold announceQuery addBytesQueryParam
  simp only [ap, cr, ev, List.append_assoc, List.cons_append, List.nil_append]
  rfl

/-- **C26.** Nothing but the query changes, apart from the fragment being removed. -/
theorem announceUrl_rest (u : Url) (a : Announcement) :
    (announceUrl u a).scheme = u.scheme ∧ (announceUrl u a).host = u.host ∧ (announceUrl u a).port = u.port ∧
      (announceUrl u a).path = u.path ∧ (announceUrl u a).fragment = none :=
  ⟨rfl, rfl, rfl, rfl, rfl⟩

/-- **C26.** The query contains only characters that need no further encoding in a URL, if the tracker's does. -/
theorem announceQuery_ascii (q : Option Text) (a : Announcement) (q' : Text) (h : announceQuery q a = some q')
    (hq : ∀ c ∈ q.getD [], 0x21 ≤ c.toNat ∧ c.toNat ≤ 0x7E ∧ c ≠ '#' ∧ c ≠ '"' ∧ c ≠ '<' ∧ c ≠ '>' ∧ c ≠ '\'') :
    ∀ c ∈ q', 0x21 ≤ c.toNat ∧ c.toNat ≤ 0x7E ∧ c ≠ '#' ∧ c ≠ '"' ∧ c ≠ '<' ∧ c ≠ '>' ∧ c ≠ '\'' := by
  let P : Char → Prop := fun c => 0x21 ≤ c.toNat ∧ c.toNat ≤ 0x7E ∧ c ≠ '#' ∧ c ≠ '"' ∧ c ≠ '<' ∧ c ≠ '>' ∧ c ≠ '\''
  have hb : ∀ b : UInt8, ∀ c ∈ serializeByte b, P c := by
    apply byte_ext
    show ∀ n : Fin 256, ∀ c ∈ serializeByte (UInt8.ofNat n.val), 0x21 ≤ c.toNat ∧ c.toNat ≤ 0x7E ∧ c ≠ '#' ∧ c ≠ '"' ∧
      c ≠ '<' ∧ c ≠ '>' ∧ c ≠ '\''
    decide +kernel
  have hs : ∀ bs : Bytes, ∀ c ∈ byteSerialize bs, P c := by
    intro bs c hc
    obtain ⟨b, -, h⟩ := List.mem_flatMap.1 hc
    exact hb b c h
  have ap : ∀ q n v, (∀ c ∈ Option.getD q [], P c) → ∀ c ∈ (appendPair q n v).getD [], P c := by
    intro q n v hq c hc
    simp only [appendPair, Option.getD_some, List.mem_append, List.mem_singleton] at hc
    rcases hc with (((hc | hc) | hc) | hc) | hc
    · exact hq c hc
    · split at hc
      · cases hc
      · rw [List.mem_singleton.1 hc]; show P '&'; decide
    · exact hs _ _ hc
    · rw [hc]; show P '='; decide
    · exact hs _ _ hc
  have ev : ∀ q, (∀ c ∈ Option.getD q [], P c) → ∀ c ∈ (a.event.addQueryParam q).getD [], P c := by
    intro q hq
    unfold AnnounceEvent.addQueryParam
    cases a.event <;> first | exact hq | exact ap _ _ _ hq
  have cr : ∀ q, (∀ c ∈ Option.getD q [], P c) → ∀ c ∈ (a.crypto.addQueryParam q).getD [], P c := by
    intro q hq
    unfold TrackerCrypto.addQueryParam
    cases a.crypto <;> first | exact hq | exact ap _ _ _ hq
  have : ∀ c ∈ (announceQuery q a).getD [], P c := by
    unfold announceQuery addBytesQueryParam
    exact ap _ _ _ (ap _ _ _ (ap _ _ _ (ap _ _ _ (ap _ _ _ (ap _ _ _ (ap _ _ _ (cr _ (ap _ _ _ (ap _ _ _ (ev _ hq))))))))))
  rw [h] at this
  exact this

/-- **C26.** Bytes are written in the query as the URL standard says (an upper case percent encoding of all but letters, digits and `*-._`), and the
parameters are joined with `=` and `&`. -/
theorem query_text (q : Option Text) (k v : Bytes) : appendPair q k v =
    some ((match q with | none => [] | some q => q ++ (if q = [] then [] else ['&'])) ++ k.flatMap formByte ++ ['='] ++ v.flatMap formByte) := by
  have hb : ∀ b, serializeByte b = formByte b := by
    apply byte_ext
    decide +kernel
  have hs : ∀ bs, byteSerialize bs = bs.flatMap formByte := by
    intro bs
    unfold byteSerialize
    congr 1
    exact funext hb
  unfold appendPair
  simp only [hs]
  cases q with
  | none => simp
  | some q => cases q <;> simp

example : appendPair (some "k=v".toList) (key "info hash") [0, 65, 126, 255] = some "k=v&info+hash=%00A%7E%FF".toList := by
  rw [query_text]
  decide +kernel

-- a tracker URL with a query, and an info hash with all sorts of bytes
example : formDecode "passkey=a+b%2F&&x".toList =
    [(keyBytes "passkey", keyBytes "a b/"), (keyBytes "x", [])] := by decide +kernel
example : (announceQuery (some "k=v".toList)
    ⟨⟨[0, 1, 32, 37, 38, 43, 61, 65, 128, 255, 0, 1, 32, 37, 38, 43, 61, 65, 128, 255], rfl⟩,
     ⟨List.replicate 20 45, rfl⟩, 0, 65535, 0, .started, 7, 50, 6881, .supported⟩) =
    some ("k=v&event=started&info_hash=%00%01+%25%26%2B%3DA%80%FF%00%01+%25%26%2B%3DA%80%FF&" ++
      "peer_id=--------------------&supportcrypto=1&port=6881&uploaded=0&downloaded=0&left=65535&numwant=50&key=7&compact=1").toList := by
  decide +kernel

end Demag.Props
