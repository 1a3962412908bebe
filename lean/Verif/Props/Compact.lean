import Verif.Lemmas.Compact

/-!
# C02: compact peer addresses round-trip and are split on exact boundaries
-/

namespace Demag.Props

open Demag Spec

/-- **C02.** The encoder produces the compact form of the address. -/
theorem toCompact_spec (a : SockAddr) : IsCompact a (sockToCompact a) := by
  cases a with
  | v4 a => exact isCompact4_toCompact a
  | v6 a => exact isCompact6_toCompact a

/-- **C02.** A byte string is read as the address `a` exactly if it is the compact form of `a`. -/
theorem sockFromCompact_spec (bs : Bytes) (a : SockAddr) :
    sockFromCompact bs = .ok a ↔ IsCompact a bs := by
  unfold sockFromCompact
  split
  · rename_i h
    cases a with
    | v4 a => simp only [Except.ok.injEq, SockAddr.v4.injEq, IsCompact, readV4_iff bs h]
    | v6 a => simp [IsCompact, IsCompact6, h]
  · rename_i h
    cases a with
    | v4 a => simp [IsCompact, IsCompact4, h]
    | v6 a => simp only [Except.ok.injEq, SockAddr.v6.injEq, IsCompact, readV6_iff bs h]
  · rename_i h1 h2
    cases a with
    | v4 a => simp only [reduceCtorEq, IsCompact, IsCompact4, false_iff]; rintro ⟨h, -⟩; exact h1 h
    | v6 a => simp only [reduceCtorEq, IsCompact, IsCompact6, false_iff]; rintro ⟨h, -⟩; exact h2 h

/-- **C02.** Decoding what was encoded gives the address back. -/
theorem compact_roundtrip (a : SockAddr) : sockFromCompact (sockToCompact a) = .ok a :=
  (sockFromCompact_spec _ _).2 (toCompact_spec a)

/-- **C02.** Different addresses have different compact forms and vice versa: accepted bytes are exactly
the encoding of the address read from them. -/
theorem compact_canonical (bs : Bytes) (a : SockAddr) (h : sockFromCompact bs = .ok a) :
    sockToCompact a = bs := by
  rw [sockFromCompact_spec] at h
  have h2 := toCompact_spec a
  cases a with
  | v4 a => exact isCompact4_unique h2 h
  | v6 a => exact isCompact6_unique h2 h

/-- **C02.** Only strings of 6 and 18 bytes are addresses, and the error reports the actual length. -/
theorem sockFromCompact_error (bs : Bytes) :
    (∃ e, sockFromCompact bs = .error e) ↔ bs.length ≠ 6 ∧ bs.length ≠ 18 := by
  unfold sockFromCompact
  split
  · rename_i h; simp [h]
  · rename_i h; simp [h]
  · rename_i h1 h2; exact ⟨fun _ => ⟨h1, h2⟩, fun _ => ⟨_, rfl⟩⟩

/-- **C02.** A list of compact IPv4 addresses is the concatenation of its entries, in order. -/
theorem v4s_spec (bs : Bytes) (xs : List SockV4) :
    v4sFromCompact bs = .ok xs ↔ IsConcat IsCompact4 xs bs :=
  vecFromCompact_iff 6 _ _ _ v4FromCompact_iff (fun _ _ h => h.1) bs xs

/-- **C02.** A list of compact IPv6 addresses is the concatenation of its entries, in order. -/
theorem v6s_spec (bs : Bytes) (xs : List SockV6) :
    v6sFromCompact bs = .ok xs ↔ IsConcat IsCompact6 xs bs :=
  vecFromCompact_iff 18 _ _ _ v6FromCompact_iff (fun _ _ h => h.1) bs xs

/-- **C02.** A compact IPv4 list is accepted iff its length is a multiple of 6. -/
theorem v4s_accepts_iff (bs : Bytes) : (∃ xs, v4sFromCompact bs = .ok xs) ↔ bs.length % 6 = 0 :=
  vecFromCompact_ok_iff 6 _ _
    (fun bs h => ⟨readV4 bs, by simp [v4FromCompact, h]⟩)
    (fun bs x h => ((v4FromCompact_iff bs x).1 h).1) bs

/-- **C02.** A compact IPv6 list is accepted iff its length is a multiple of 18. -/
theorem v6s_accepts_iff (bs : Bytes) : (∃ xs, v6sFromCompact bs = .ok xs) ↔ bs.length % 18 = 0 :=
  vecFromCompact_ok_iff 18 _ _
    (fun bs h => ⟨readV6 bs, by simp [v6FromCompact, h]⟩)
    (fun bs x h => ((v6FromCompact_iff bs x).1 h).1) bs

/-- **C02.** Encoding a list of addresses entry by entry and decoding it gives the list back. -/
theorem v4s_roundtrip (xs : List SockV4) :
    v4sFromCompact (xs.flatMap fun a => sockToCompact (.v4 a)) = .ok xs := by
  rw [v4s_spec]
  induction xs with
  | nil => rfl
  | cons x xs ih => exact ⟨_, _, rfl, isCompact4_toCompact x, ih⟩

theorem v6s_roundtrip (xs : List SockV6) :
    v6sFromCompact (xs.flatMap fun a => sockToCompact (.v6 a)) = .ok xs := by
  rw [v6s_spec]
  induction xs with
  | nil => rfl
  | cons x xs ih => exact ⟨_, _, rfl, isCompact6_toCompact x, ih⟩

theorem tryGetIpv4_ok (b : Bytes) (a : Ipv4) (r : Bytes) :
    tryGetIpv4 b = .ok (a, r) ↔ b = a.octets ++ r := by
  obtain ⟨x⟩ := a
  have := tryGetUint_ok (w := 4) (bits := 32) (by decide) b x r
  simp only [Ipv4.octets]
  rw [← this]
  unfold tryGetIpv4
  cases h : tryGetUint 4 32 b with
  | error => simp [bind, Except.bind]
  | ok v => obtain ⟨v1, v2⟩ := v; simp [bind, Except.bind, pure, Except.pure]

theorem tryGetIpv6_ok (b : Bytes) (a : Ipv6) (r : Bytes) :
    tryGetIpv6 b = .ok (a, r) ↔ b = a.octets ++ r := by
  obtain ⟨x⟩ := a
  have := tryGetUint_ok (w := 16) (bits := 128) (by decide) b x r
  simp only [Ipv6.octets]
  rw [← this]
  unfold tryGetIpv6
  cases h : tryGetUint 16 128 b with
  | error => simp [bind, Except.bind]
  | ok v => obtain ⟨v1, v2⟩ := v; simp [bind, Except.bind, pure, Except.pure]

/-- **C02.** IPv4 node info is exactly id, address and port (26 bytes). -/
theorem node4_spec (bs : Bytes) (n : NodeT Ipv4) :
    node4FromCompact bs = .ok n ↔ IsCompactNode4 n bs := by
  unfold node4FromCompact
  rw [nodeFromCompact_iff _ _ Ipv4.octets tryGetIpv4_ok]
  have hc := isCompact4_toCompact ⟨n.ip, n.port⟩
  have hid := n.id.len
  constructor
  · rintro rfl
    refine ⟨by rw [List.append_assoc, ← hid]; simp, ?_⟩
    rw [List.append_assoc, ← hid]
    simpa [sockToCompact] using hc
  · rintro ⟨h1, h2⟩
    rw [← List.take_append_drop 20 bs, h1, isCompact4_unique h2 hc, List.append_assoc]
    rfl

/-- **C02.** IPv6 node info is exactly id, address and port (38 bytes). -/
theorem node6_spec (bs : Bytes) (n : NodeT Ipv6) :
    node6FromCompact bs = .ok n ↔ IsCompactNode6 n bs := by
  unfold node6FromCompact
  rw [nodeFromCompact_iff _ _ Ipv6.octets tryGetIpv6_ok]
  have hc := isCompact6_toCompact ⟨n.ip, n.port⟩
  have hid := n.id.len
  constructor
  · rintro rfl
    refine ⟨by rw [List.append_assoc, ← hid]; simp, ?_⟩
    rw [List.append_assoc, ← hid]
    simpa [sockToCompact] using hc
  · rintro ⟨h1, h2⟩
    rw [← List.take_append_drop 20 bs, h1, isCompact6_unique h2 hc, List.append_assoc]
    rfl

theorem compactNode4_length {n : NodeT Ipv4} {bs : Bytes} (h : IsCompactNode4 n bs) :
    bs.length = 26 := by
  have h1 := congrArg List.length h.1
  have h2 := h.2.1
  rw [n.id.len, List.length_take] at h1
  rw [List.length_drop] at h2
  omega

theorem compactNode6_length {n : NodeT Ipv6} {bs : Bytes} (h : IsCompactNode6 n bs) :
    bs.length = 38 := by
  have h1 := congrArg List.length h.1
  have h2 := h.2.1
  rw [n.id.len, List.length_take] at h1
  rw [List.length_drop] at h2
  omega

/-- **C02.** A compact list of IPv4 nodes is the concatenation of its entries, in order. -/
theorem node4s_spec (bs : Bytes) (xs : List (NodeT Ipv4)) :
    node4sFromCompact bs = .ok xs ↔ IsConcat IsCompactNode4 xs bs :=
  vecFromCompact_iff 26 _ _ _ node4_spec (fun _ _ h => compactNode4_length h) bs xs

/-- **C02.** A compact list of IPv6 nodes is the concatenation of its entries, in order. -/
theorem node6s_spec (bs : Bytes) (xs : List (NodeT Ipv6)) :
    node6sFromCompact bs = .ok xs ↔ IsConcat IsCompactNode6 xs bs :=
  vecFromCompact_iff 38 _ _ _ node6_spec (fun _ _ h => compactNode6_length h) bs xs

/-- **C02.** A compact list of IPv4 nodes is accepted iff its length is a multiple of 26. -/
theorem node4s_accepts_iff (bs : Bytes) :
    (∃ xs, node4sFromCompact bs = .ok xs) ↔ bs.length % 26 = 0 := by
  refine vecFromCompact_ok_iff 26 _ _ (fun bs h => ?_)
    (fun bs x h => compactNode4_length ((node4_spec bs x).1 h)) bs
  refine ⟨⟨⟨bs.take 20, by simp [h]⟩, (readV4 (bs.drop 20)).ip, (readV4 (bs.drop 20)).port⟩, ?_⟩
  rw [node4_spec]
  exact ⟨rfl, (readV4_iff _ (by simp [h]) _).1 rfl⟩

/-- **C02.** A compact list of IPv6 nodes is accepted iff its length is a multiple of 38. -/
theorem node6s_accepts_iff (bs : Bytes) :
    (∃ xs, node6sFromCompact bs = .ok xs) ↔ bs.length % 38 = 0 := by
  refine vecFromCompact_ok_iff 38 _ _ (fun bs h => ?_)
    (fun bs x h => compactNode6_length ((node6_spec bs x).1 h)) bs
  refine ⟨⟨⟨bs.take 20, by simp [h]⟩, (readV6 (bs.drop 20)).ip, (readV6 (bs.drop 20)).port⟩, ?_⟩
  rw [node6_spec]
  exact ⟨rfl, (readV6_iff _ (by simp [h]) _).1 rfl⟩

/-- **C02.** The address at which a listed node is contacted is the compact address behind its ID. -/
theorem node4_address (bs : Bytes) (n : NodeT Ipv4) (h : node4FromCompact bs = .ok n) :
    sockFromCompact (bs.drop 20) = .ok (NodeT.ofV4 n).address ∧ (NodeT.ofV4 n).id.bytes = bs.take 20 := by
  obtain ⟨h1, h2⟩ := (node4_spec bs n).1 h
  exact ⟨(sockFromCompact_spec _ _).2 h2, h1.symm⟩

/-- **C02.** The address at which a listed node is contacted is the compact address behind its ID, for IPv6. -/
theorem node6_address (bs : Bytes) (n : NodeT Ipv6) (h : node6FromCompact bs = .ok n) :
    sockFromCompact (bs.drop 20) = .ok (NodeT.ofV6 n).address ∧ (NodeT.ofV6 n).id.bytes = bs.take 20 := by
  obtain ⟨h1, h2⟩ := (node6_spec bs n).1 h
  exact ⟨(sockFromCompact_spec _ _).2 h2, h1.symm⟩

-- concrete cases
example : (node6FromCompact (List.replicate 35 1 ++ [2, 0x1A, 0xE1])).toOption.map (fun n => (NodeT.ofV6 n).address) =
    some (.v6 ⟨⟨0x01010101010101010101010101010102⟩, 0x1AE1⟩) := by decide
example : sockFromCompact [10, 0, 0, 1, 0x1A, 0xE1] = .ok (.v4 ⟨⟨0x0A000001⟩, 0x1AE1⟩) := by decide
example : sockFromCompact [10, 0, 0, 1, 0x1A] = .error ⟨"SocketAddr", 5⟩ := by decide
example : IsConcat IsCompact4 [⟨⟨0x0A000001⟩, 1⟩, ⟨⟨0x0A000002⟩, 2⟩]
    [10, 0, 0, 1, 0, 1, 10, 0, 0, 2, 0, 2] := by
  refine ⟨[10, 0, 0, 1, 0, 1], _, rfl, ⟨by decide, by decide, by decide⟩, [10, 0, 0, 2, 0, 2], _, rfl, ⟨by decide, by decide, by decide⟩, rfl⟩

end Demag.Props
