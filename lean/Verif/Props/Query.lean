import Verif.Spec.Query
import Verif.Props.Json
import Verif.Props.IpText
import Verif.Props.TrackerFlow
import Verif.Props.DhtLookup
import Verif.Props.Download
import Verif.Props.SecureLink
import Verif.Props.App

/-! # What the query commands print and write -/

namespace Demag.Props

open Spec

theorem utf8_no_lf {t : Text} (h : ∀ c ∈ t, ' ' ≤ c ∧ c ≤ '~') : (10 : UInt8) ∉ utf8 t := by
  intro hm
  rw [utf8, List.mem_flatMap] at hm
  obtain ⟨c, hc, hm⟩ := hm
  have key : ∀ n : Fin 128, ' ' ≤ Char.ofNat n.val → (10 : UInt8) ∉ String.utf8EncodeChar (Char.ofNat n.val) := by decide +kernel
  obtain ⟨h1, h2⟩ := h c hc
  have hlt : c.toNat < 128 := by
    have : c.toNat ≤ '~'.toNat := h2
    exact Nat.lt_of_le_of_lt this (by decide)
  have := key ⟨c.toNat, hlt⟩
  simp only [Char.ofNat_toNat] at this
  exact this h1 hm

theorem ipChar_ascii {c : Char} (h : IpChar c) : ' ' ≤ c ∧ c ≤ '~' := jsonChar_ascii c c (by rw [ipChar_plain h]; simp)

theorem sockText_ascii (a : SockAddr) : ∀ c ∈ sockText a, ' ' ≤ c ∧ c ≤ '~' := by
  have dec : ∀ n c, c ∈ decimal n → ' ' ≤ c ∧ c ≤ '~' := fun n c hc => ipChar_ascii (.inl ((decimal_isDecimal n).2.1 c hc))
  intro c hc
  cases a with
  | v4 a =>
    rw [sockText, List.mem_append, List.mem_cons] at hc
    rcases hc with hc | rfl | hc
    · exact ipChar_ascii (ipv4Text_chars _ c hc)
    · decide
    · exact dec _ c hc
  | v6 a =>
    rw [sockText, List.mem_cons, List.mem_append, List.mem_cons, List.mem_cons] at hc
    rcases hc with rfl | hc | rfl | rfl | hc
    · decide
    · exact ipChar_ascii (ipText_chars (.v6 a.ip) c hc)
    · decide
    · decide
    · exact dec _ c hc

theorem peerLine_ascii (json : Bool) (p : Peer) : ∀ c ∈ peerLine json p, ' ' ≤ c ∧ c ≤ '~' := by
  unfold peerLine
  split
  · exact json_peer_ascii p
  · exact sockText_ascii _

theorem printLines_ok {out : Nat → Option Nat} (ho : ∀ i, out i = none) (i : Nat) (ts : List Text) :
    printLines out i ts = ((ts.map fun t => utf8 t ++ [10]).flatten, true) := by
  induction ts generalizing i with
  | nil => rfl
  | cons t ts ih =>
    rw [printLines, ho]
    simp only [ih]
    simp

theorem printPeers_lines {out : Nat → Option Nat} (ho : ∀ i, out i = none) (json : Bool) (ps : List Peer) :
    OutputLines (printPeers json out ps).1 (ps.map fun p => utf8 (peerLine json p)) ∧ (printPeers json out ps).2 = .success := by
  unfold printPeers
  rw [printLines_ok ho]
  refine ⟨⟨?_, ?_⟩, rfl⟩
  · simp [List.map_map, Function.comp_def]
  · intro l hl
    obtain ⟨p, -, rfl⟩ := List.mem_map.1 hl
    exact utf8_no_lf (peerLine_ascii json p)

theorem forall₂_map_left {α β : Type} {R : α → β → Prop} (f : β → α) (l : List β) (h : ∀ b ∈ l, R (f b) b) : List.Forall₂ R (l.map f) l := by
  induction l with
  | nil => exact .nil
  | cons b l ih => exact .cons (h b (by simp)) (ih fun x hx => h x (by simp [hx]))

/-- **C67.** Peers are printed one per line, in order, each as a text of its address; the command is successful. -/
theorem printed_addresses {out : Nat → Option Nat} (ho : ∀ i, out i = none) (ps : List Peer) :
    ∃ ls, OutputLines (printPeers false out ps).1 ls ∧ List.Forall₂ (fun l p => PrintsAddress l p.address) ls ps ∧
      (printPeers false out ps).2 = .success :=
  ⟨_, (printPeers_lines ho false ps).1, forall₂_map_left _ _ fun p _ => ⟨_, rfl, sockText_is p.address⟩, (printPeers_lines ho false ps).2⟩

/-- **C67.** With `--json` each line is a JSON object: the host is a text of the IP address, the port is the port, the ID is that of the peer read
as UTF-8 (null if it is not known), and it says whether the peer requires encryption. -/
theorem printed_json {out : Nat → Option Nat} (ho : ∀ i, out i = none) (ps : List Peer) :
    ∃ ls, OutputLines (printPeers true out ps).1 ls ∧ (printPeers true out ps).2 = .success ∧
      List.Forall₂ (fun l p => ∃ host, IsIpText host p.address.ip ∧ LineJson l
        [("host".toList, .str host), ("port".toList, .num p.address.port.toNat),
         ("id".toList, match p.id with | some i => .str (lossyUtf8 i.bytes) | none => .null),
         ("requires_crypto".toList, .bool p.requiresCrypto)]) ls ps := by
  refine ⟨_, (printPeers_lines ho true ps).1, (printPeers_lines ho true ps).2, forall₂_map_left _ _ fun p _ => ?_⟩
  refine ⟨ipText p.address.ip, ipText_is _, _, rfl, ?_⟩
  rw [peerLine, if_pos rfl, json_peer]
  cases p.id <;> rfl

theorem split_line {l l' r r' : Bytes} (h : (10 : UInt8) ∉ l) (h' : (10 : UInt8) ∉ l') (e : l ++ [10] ++ r = l' ++ [10] ++ r') : l = l' ∧ r = r' := by
  induction l generalizing l' with
  | nil =>
    cases l' with
    | nil => simpa using e
    | cons x l' => simp only [List.nil_append, List.cons_append, List.cons.injEq] at e; exact absurd e.1 (by rintro rfl; simp at h')
  | cons y l ih =>
    cases l' with
    | nil => simp only [List.nil_append, List.cons_append, List.cons.injEq] at e; exact absurd e.1 (by rintro rfl; simp at h)
    | cons x l' =>
      simp only [List.cons_append, List.cons.injEq] at e
      simp only [List.mem_cons, not_or] at h h'
      obtain ⟨h1, h2⟩ := ih h.2 h'.2 e.2
      exact ⟨by rw [e.1, h1], h2⟩

/-- The lines of an output are determined. -/
theorem outputLines_unique {b : Bytes} {ls ls' : List Bytes} (h : OutputLines b ls) (h' : OutputLines b ls') : ls = ls' := by
  obtain ⟨rfl, h2⟩ := h
  obtain ⟨e, h2'⟩ := h'
  induction ls generalizing ls' with
  | nil =>
    cases ls' with
    | nil => rfl
    | cons l' ls' => simp at e
  | cons l ls ih =>
    cases ls' with
    | nil => simp at e
    | cons l' ls' =>
      simp only [List.map_cons, List.flatten_cons] at e
      obtain ⟨rfl, e'⟩ := split_line (h2 l (by simp)) (h2' l' (by simp)) e
      rw [ih (fun x hx => h2 x (by simp [hx])) e' (fun x hx => h2' x (by simp [hx]))]

/-- **C67.** Every line printed is accepted by `query-peer` as the peer with that address. -/
theorem printed_read_back {l : Bytes} {a : SockAddr} (h : PrintsAddress l a) :
    ∃ t, l = utf8 t ∧ Peer.fromStr t = some ⟨a, none, false⟩ := by
  obtain ⟨t, rfl, ht⟩ := h
  refine ⟨t, rfl, ?_⟩
  rw [peer_fromStr_iff]
  exact ⟨rfl, rfl, 0, ht⟩

/-- **C67.** The output tells which peers there are, and in which order. -/
theorem printed_injective {out : Nat → Option Nat} (ho : ∀ i, out i = none) {ps qs : List Peer}
    (h : (printPeers false out ps).1 = (printPeers false out qs).1) : ps.map (·.address) = qs.map (·.address) := by
  have h1 := (printPeers_lines ho false ps).1
  rw [h] at h1
  have := outputLines_unique h1 (printPeers_lines ho false qs).1
  clear h h1
  induction ps generalizing qs with
  | nil => cases qs with
    | nil => rfl
    | cons => simp at this
  | cons p ps ih => cases qs with
    | nil => simp at this
    | cons q qs =>
      simp only [List.map_cons, List.cons.injEq] at this
      have e := Demag.utf8_inj this.1
      simp only [peerLine, Bool.false_eq_true, if_false] at e
      simp [sockText_injective e, ih this.2]

/-- **C67.** When the standard output fails (a pipe was closed, say) the lines before are printed, the program crashes and nothing more is printed. -/
theorem print_broken (json : Bool) (out : Nat → Option Nat) (pre : List Peer) (p : Peer) (post : List Peer) (j : Nat)
    (h1 : ∀ i < pre.length, out i = none) (h2 : out pre.length = some j) :
    printPeers json out (pre ++ p :: post) =
      ((printPeers json (fun _ => none) pre).1 ++ (utf8 (peerLine json p) ++ [10]).take j, .crash) := by
  have key : ∀ (i : Nat) (l : List Text) (t : Text) (r : List Text), (∀ k < l.length, out (i + k) = none) → out (i + l.length) = some j →
      printLines out i (l ++ t :: r) = ((l.map fun t => utf8 t ++ [10]).flatten ++ (utf8 t ++ [10]).take j, false) := by
    intro i l t r
    induction l generalizing i with
    | nil => intro _ h; rw [List.nil_append, printLines, show out i = some j by simpa using h]; rfl
    | cons x l ih =>
      intro h h'
      rw [List.cons_append, printLines, show out i = none by simpa using h 0 (by simp)]
      simp only
      rw [ih (i + 1) (fun k hk => by rw [Nat.add_assoc, Nat.add_comm 1]; exact h (k + 1) (by simpa using hk))
        (by rw [Nat.add_assoc, Nat.add_comm 1]; simpa using h')]
      simp
  unfold printPeers
  rw [printLines_ok (fun _ => rfl), List.map_append, List.map_cons,
    key 0 _ _ _ (by simpa using h1) (by simpa using h2)]
  rfl

/-- **C67.** `query-tracker` prints something only if the tracker's answer has been received; otherwise it fails. -/
theorem query_tracker_fails {ε : Type} (json : Bool) (out : Nat → Option Nat) (e : ε) :
    queryTracker json out (.error e) = ([], .failure) := rfl

/-- **C67.** From the datagrams to the standard output: if `query-tracker` is successful for a UDP tracker, then a packet has arrived that
answers the announcement of this info hash, with the encryption flags of the command line, and what is printed are the addresses in it. -/
theorem query_tracker_udp {lossy : Bytes → Text} {parseIp : Text → Option IpAddr} {u : UdpUrl} {c : GetterCtx} {ih : InfoHash} {fr fs fn : Bool}
    {tr : AskTrace} {s : Ask} (h : AskRun lossy parseIp (.udp u) (c.withFlags ih fr fs fn) tr s)
    {r : Except (GetterError AskError) (List Peer)} (hr : r ∈ askResults tr) {out : Nat → Option Nat} (ho : ∀ i, out i = none)
    (hs : (queryTracker false out r).2 = .success) :
    ∃ a addr req cid xid bs ue o i l n addrs ls,
      (addr, req) ∈ datagrams tr ∧ Found tr addr ∧ IsAnnounceRequest cid xid a (utf8 u.urldata) req ∧ a.infoHash = ih ∧ a.event = .started ∧
      a.crypto = (if fr then .required else if fs then .supported else if fn then .plain else c.pref.getTrackerCrypto) ∧
      (AskEvent.udp ue, o) ∈ tr ∧ ue.input = .packet bs ∧ IsAnnounceResponse addr.isV6 xid i l n addrs bs ∧
      OutputLines (queryTracker false out r).1 ls ∧ List.Forall₂ PrintsAddress ls addrs := by
  cases r with
  | error e => cases hs
  | ok ps =>
    obtain ⟨pre, e, o, post, rfl, hm⟩ : ∃ pre e o post, tr = pre ++ (e, o) :: post ∧ .result (.ok ps) ∈ o := by
      simp only [askResults, List.mem_filterMap, List.mem_flatMap] at hr
      obtain ⟨x, ⟨⟨e, o⟩, h1, h2⟩, h3⟩ := hr
      obtain ⟨pre, post, rfl⟩ := List.append_of_mem h1
      refine ⟨pre, e, o, post, rfl, ?_⟩
      cases x <;> simp at h3
      subst h3
      exact h2
    rcases ask_peers h rfl hm with ⟨u', ue, bs, addr, req, cid, xid, i, l, n, addrs, hu, rfl, hi, hd, hq, ha, hp⟩ | ⟨u', _, _, _, _, hu, -⟩
    · cases hu
      have hdm : (addr, req) ∈ datagrams pre := List.mem_of_getLast? hd
      have hmem : ∀ x ∈ datagrams pre, x ∈ datagrams (pre ++ (.udp ue, o) :: post) := by
        intro x hx
        simp only [datagrams, List.flatMap_append, List.filterMap_append, List.mem_append]
        exact .inl hx
      have hf : Found (pre ++ (.udp ue, o) :: post) addr := by
        simp only [datagrams, List.mem_filterMap, List.mem_flatMap] at hdm
        obtain ⟨x, ⟨⟨e1, o1⟩, h1, h2⟩, h3⟩ := hdm
        obtain ⟨p1, p2, rfl⟩ := List.append_of_mem h1
        have hx : x = .datagram addr req := by
          cases x <;> simp at h3
          rw [h3.1, h3.2]
        obtain ⟨-, -, hf, -⟩ := ask_datagrams h (pre := p1) (e := e1) (out := o1) (post := p2 ++ (.udp ue, o) :: post) (by simp) (hx ▸ h2)
        simpa using found_mono hf _
      obtain ⟨ls, l1, l2, -⟩ := printed_addresses ho ps
      refine ⟨_, addr, req, cid, xid, bs, ue, o, i, l, n, addrs, ls, hmem _ hdm, hf, hq, rfl, rfl, ?_, by simp, hi, ha, l1, ?_⟩
      · cases fr <;> cases fs <;> cases fn <;> rfl
      · subst hp
        clear hs hr h hm ha l1
        generalize hps : addrs.map (fun a => (⟨a, none, false⟩ : Peer)) = ps at l2
        induction l2 generalizing addrs with
        | nil => cases addrs with
          | nil => exact .nil
          | cons => cases hps
        | cons h1 _ ih => cases addrs with
          | nil => cases hps
          | cons x addrs =>
            cases hps
            exact .cons h1 (ih _ rfl)
    · cases hu

/-- **C67.** `query-tracker` is successful exactly if the tracker has answered, even with no peers at all; otherwise it prints nothing. -/
theorem query_tracker_succeeds {ε : Type} {out : Nat → Option Nat} (ho : ∀ i, out i = none) (json : Bool) (r : Except ε (List Peer)) :
    ((queryTracker json out r).2 = .success ↔ ∃ ps, r = .ok ps) ∧
    ((queryTracker json out r).2 ≠ .success → queryTracker json out r = ([], .failure)) := by
  cases r with
  | error e => simp [queryTracker]
  | ok ps => simp [queryTracker, (printPeers_lines ho json ps).2]

/-- **C67.** The same from the response of an HTTP tracker to the standard output. -/
theorem query_tracker_http {lossy : Bytes → Text} {parseIp : Text → Option IpAddr} {u : Url} {c : GetterCtx} {ih : InfoHash} {fr fs fn : Bool}
    {tr : AskTrace} {s : Ask} (h : AskRun lossy parseIp (.http u) (c.withFlags ih fr fs fn) tr s)
    {r : Except (GetterError AskError) (List Peer)} (hr : r ∈ askResults tr) {out : Nat → Option Nat} (ho : ∀ i, out i = none)
    (hs : (queryTracker false out r).2 = .success) :
    ∃ a url kvs resp o ls,
      url ∈ requests tr ∧ IsHttpAnnounce u a url ∧ a.infoHash = ih ∧ a.event = .started ∧
      a.crypto = (if fr then .required else if fs then .supported else if fn then .plain else c.pref.getTrackerCrypto) ∧
      (AskEvent.http (.body (benc (.dict kvs))), o) ∈ tr ∧ Canonical (.dict kvs) ∧ DenotesResponse lossy parseIp kvs resp ∧
      OutputLines (queryTracker false out r).1 ls ∧ List.Forall₂ (fun l p => PrintsAddress l p.address) ls resp.peers := by
  cases r with
  | error e => cases hs
  | ok ps =>
    obtain ⟨pre, e, o, post, rfl, hm⟩ : ∃ pre e o post, tr = pre ++ (e, o) :: post ∧ .result (.ok ps) ∈ o := by
      simp only [askResults, List.mem_filterMap, List.mem_flatMap] at hr
      obtain ⟨x, ⟨⟨e, o⟩, h1, h2⟩, h3⟩ := hr
      obtain ⟨pre, post, rfl⟩ := List.append_of_mem h1
      refine ⟨pre, e, o, post, rfl, ?_⟩
      cases x <;> simp at h3
      subst h3
      exact h2
    rcases ask_peers h rfl hm with ⟨u', _, _, _, _, _, _, _, _, _, _, hu, -⟩ | ⟨u', url, b, kvs, resp, hu, rfl, hq, ha, rfl, hk, hd, rfl⟩
    · cases hu
    · cases hu
      obtain ⟨ls, l1, l2, -⟩ := printed_addresses ho resp.peers
      refine ⟨_, url, kvs, resp, o, ls, ?_, ha, rfl, rfl, ?_, by simp, hk, hd, l1, l2⟩
      · have : url ∈ requests pre := by rw [hq]; simp
        simp only [requests, List.flatMap_append, List.filterMap_append, List.mem_append] at this ⊢
        exact .inl this
      · cases fr <;> cases fs <;> cases fn <;> rfl

/-- **C67.** `query-dht` is successful exactly if the lookup has found peers; then it prints them, and nothing otherwise. -/
theorem query_dht {out : Nat → Option Nat} (ho : ∀ i, out i = none) (json : Bool) (r : Option FoundPeers) :
    ((queryDht json out r).2 = .success ↔ ∃ f, r = some f ∧ f.peers ≠ []) ∧
    (∀ f, r = some f → f.peers ≠ [] → queryDht json out r = printPeers json out f.peers) ∧
    ((queryDht json out r).2 ≠ .success → queryDht json out r = ([], .failure)) := by
  cases r with
  | none => simp [queryDht]
  | some f =>
    obtain ⟨peers, nodes⟩ := f
    cases peers with
    | nil => simp [queryDht]
    | cons p ps =>
      have hx := (printPeers_lines ho json (p :: ps)).2
      simp [queryDht, hx]

/-- **C67.** From the replies to the standard output: the lines `query-dht` prints for a lookup that has ended are the addresses of the peers
listed in the valid responses to its queries, each once. -/
theorem query_dht_run {lookup : Text → BitVec 16 → Option (List SockAddr)} {nodes : List InetAddr} (my : NodeId) (v6 : Bool) (es : List DhtEvent) (st : DhtState)
    (tr : List DhtEffect) (h : (DhtState.init my v6).run lookup nodes es = some (st, tr))
    (req : Nat) (r : FoundPeers) (ha : DhtEffect.answer req r ∈ tr) {out : Nat → Option Nat} (ho : ∀ i, out i = none) :
    ∃ sid hash ls ps, DhtEffect.started sid req hash ∈ tr ∧ ps.Nodup ∧ (∀ p, p ∈ ps ↔ p ∈ peersOf (responses sid tr)) ∧
      OutputLines (queryDht false out (some r)).1 ls ∧ List.Forall₂ (fun l p => PrintsAddress l p.address) ls ps := by
  obtain ⟨sid, hash, h1, -, h2, h3, -⟩ := answer_spec my v6 es st tr h req r ha
  by_cases hp : r.peers = []
  · refine ⟨sid, hash, [], r.peers, h1, h2, h3, ?_, by rw [hp]; exact .nil⟩
    simp [queryDht, hp, OutputLines]
  · obtain ⟨ls, l1, l2, -⟩ := printed_addresses ho r.peers
    refine ⟨sid, hash, ls, r.peers, h1, h2, h3, ?_, l2⟩
    rw [(query_dht ho false (some r)).2.1 r rfl hp]
    exact l1

/-! ### `query-peer` -/

section
variable {sha1 H : Bytes → Bytes} {env : QueryPeerEnv} {encrypt prefer noEncrypt : Bool} {template : List TemplateElement} {peer : Peer}
  {ih : InfoHash}

theorem ask_run (sha1 H : Bytes → Bytes) (env : QueryPeerEnv) (encrypt prefer noEncrypt : Bool) (peer : Peer) (ih : InfoHash) :
    ∃ links, (∀ i, links i = (env.raws i).link H (env.chances i) ih
        (i == 0 && getCryptoMode (queryPeerMode encrypt prefer noEncrypt) env.pref peer.requiresCrypto != some .plain)) ∧
      env.ask sha1 H encrypt prefer noEncrypt peer ih =
        infoGetterRun sha1 links ⟨ih, env.localId, peer.address.ip⟩ (queryPeerMode encrypt prefer noEncrypt) env.pref peer.requiresCrypto :=
  ⟨_, fun _ => rfl, rfl⟩

theorem performEffects_ok {ok : Nat → Bool} (ho : ∀ i, ok i = true) (i : Nat) (es : List SaveEffect) : performEffects ok i es = (es, true) := by
  induction es generalizing i with
  | nil => rfl
  | cons e es ih => rw [performEffects, if_pos (ho i), ih]

theorem performEffects_last {ok : Nat → Bool} {i : Nat} {es : List SaveEffect} {e : SaveEffect} (hes : writesOf es = []) :
    ((performEffects ok i (es ++ [e])).2 = true → (performEffects ok i (es ++ [e])).1 = es ++ [e]) ∧
    ((performEffects ok i (es ++ [e])).2 = false → writesOf (performEffects ok i (es ++ [e])).1 = []) := by
  induction es generalizing i with
  | nil =>
    rw [List.nil_append, performEffects]
    split
    · exact ⟨fun _ => rfl, fun h => by cases h⟩
    · exact ⟨(fun h => by cases h), fun _ => rfl⟩
  | cons x es ih =>
    have hx : writesOf es = [] ∧ ∀ l, writesOf (x :: l) = writesOf l := by
      cases x with
      | createDirAll d => exact ⟨hes, fun _ => rfl⟩
      | write o b => cases hes
    rw [List.cons_append, performEffects]
    split
    · obtain ⟨h1, h2⟩ := ih (i := i + 1) hx.1
      exact ⟨fun h => by simp only [h1 h], fun h => by rw [hx.2]; exact h2 h⟩
    · exact ⟨(fun h => by cases h), fun _ => rfl⟩

/-- **C68.** `query-peer` crashes only if the time allowed for the key exchange is too long to be measured (C69), having written nothing.  If it ends successfully it has written exactly one file: the dictionary with the creator, the date and
an info dictionary whose encoding has the requested digest, without trackers and nodes, to where the template says, with the sanitized name of the
torrent and the requested info hash.  If it fails it has written nothing. -/
theorem query_peer_writes {effects : List SaveEffect} {code : ExitCode}
    (h : queryPeer sha1 H env encrypt prefer noEncrypt template peer ih = some (effects, code)) :
    (code = .crash → effects = [] ∧ (env.raws 0).connect = .ok ∧ (env.raws 0).sends 0 = .ok ∧
      2 ^ 63 ≤ (env.chances 0).now + (env.chances 0).dhTimeout) ∧
    (code = .failure → writesOf effects = []) ∧
    (code = .success → ∃ info, Canonical (.dict info) ∧ sha1 (benc (.dict info)) = ih.bytes ∧
      writesOf effects = [(Output.fromArg (PathTemplate.format template (sanitize (((NameOf info).map env.lossy).getD "NONAME".toList)) ih),
        benc (.dict (torrentDict ipText (.dict info) [] [] (unixNow env.now).toInt client)))]) := by
  obtain ⟨links, hlinks, hask⟩ := ask_run sha1 H env encrypt prefer noEncrypt peer ih
  have hr := run_spec sha1 links ⟨ih, env.localId, peer.address.ip⟩ (queryPeerMode encrypt prefer noEncrypt) env.pref peer.requiresCrypto
  unfold queryPeer at h
  rw [hask] at h
  generalize (infoGetterRun sha1 links ⟨ih, env.localId, peer.address.ip⟩ (queryPeerMode encrypt prefer noEncrypt) env.pref
    peer.requiresCrypto).2 = r at h hr
  generalize (infoGetterRun sha1 links ⟨ih, env.localId, peer.address.ip⟩ (queryPeerMode encrypt prefer noEncrypt) env.pref
    peer.requiresCrypto).1 = as at hr
  cases r with
  | err e => cases h; exact ⟨(fun h => by cases h), fun _ => rfl, fun h => by cases h⟩
  | panic =>
    cases h
    obtain ⟨-, h1, h2⟩ := run_panic hr
    have hx := hlinks 0
    rw [hx] at h1 h2
    obtain ⟨-, h2, h3⟩ := (overflow_iff _ _ _ _ _).1 h2
    rw [link_connect] at h1
    exact ⟨fun _ => ⟨rfl, h1, h2, h3⟩, (fun h => by cases h), fun h => by cases h⟩
  | hang => cases h
  | ok info =>
    obtain ⟨h1, h2, h3, -⟩ := run_success hr
    obtain ⟨name, ⟨kvs, hk, hc, rfl⟩, hs⟩ := save_spec env.lossy ipText env.parent (TorrentFile.new env.now info [] []) h3 template
    have hb := torrentFile_dict ipText (TorrentFile.new env.now info [] []) (.dict kvs) hk
    have hih : (TorrentFile.new env.now info [] []).info.infoHash = ih := h1
    have hk' : info.data = benc (.dict kvs) := hk
    rw [hk'] at h2
    rw [hih] at hs
    have hsave : ∃ dirs, writesOf dirs = [] ∧ (TorrentFile.new env.now info [] []).save env.lossy ipText env.parent template = some (dirs ++
        [.write (Output.fromArg (PathTemplate.format template (sanitize (((NameOf kvs).map env.lossy).getD "NONAME".toList)) ih))
          (benc (.dict (torrentDict ipText (.dict kvs) [] [] (unixNow env.now).toInt client)))]) := by
      rw [hs, hb]
      generalize Output.fromArg _ = dest
      cases dest with
      | stdout => exact ⟨[], rfl, rfl⟩
      | file p =>
        simp only
        split
        · rename_i ch dir _; exact ⟨[.createDirAll (ch :: dir)], rfl, rfl⟩
        · exact ⟨[], rfl, rfl⟩
    obtain ⟨dirs, hw, hsave⟩ := hsave
    simp only [hsave, Option.some.injEq, Prod.mk.injEq] at h
    obtain ⟨rfl, rfl⟩ := h
    obtain ⟨p1, p2⟩ := performEffects_last (ok := env.fileOk) (i := 0) hw (e := .write (Output.fromArg (PathTemplate.format template
      (sanitize (((NameOf kvs).map env.lossy).getD "NONAME".toList)) ih))
          (benc (.dict (torrentDict ipText (.dict kvs) [] [] (unixNow env.now).toInt client))))
    have wa : ∀ l o b, writesOf l = [] → writesOf (l ++ [.write o b]) = [(o, b)] := by
      intro l o b
      induction l with
      | nil => intro _; rfl
      | cons x l ih => cases x with
        | createDirAll d => exact ih
        | write o b => intro h; cases h
    split
    · rename_i hok
      exact ⟨(fun h => by cases h), (fun h => by cases h), fun _ => ⟨kvs, hc, h2, by rw [p1 hok]; exact wa _ _ _ hw⟩⟩
    · rename_i hok
      exact ⟨(fun h => by cases h), fun _ => p2 (by simpa using hok), fun h => by cases h⟩

/-- **C68.** If the peer, over the connection that the flags ask for, delivers metadata with the requested digest, and the file can be written,
then `query-peer` is successful. -/
theorem query_peer_finds {arg : Text} (hp : Peer.fromStr arg = some peer) {d : Bytes} {enc : Bool}
    (henc : enc = firstEncrypts (wish (queryPeerMode encrypt prefer noEncrypt) env.pref) false)
    (hd : Delivers (fun f m => Message.decode f reg42 = .ok m) ((env.raws 0).link H (env.chances 0) ih enc)
      ⟨ih, env.localId, peer.address.ip⟩ enc d)
    (hs : sha1 d = ih.bytes) (hi : IsInfoDict d) (hok : ∀ i, env.fileOk i = true) :
    ∃ effects, queryPeer sha1 H env encrypt prefer noEncrypt template peer ih = some (effects, .success) := by
  have hreq : peer.requiresCrypto = false := ((peer_fromStr_iff _ _).1 hp).2.1
  have hrun : (env.ask sha1 H encrypt prefer noEncrypt peer ih).2 = .ok ⟨ih, d⟩ := by
    obtain ⟨h, s, code, frames, fs, t, stop, n, ms, ps, ha, hsends, hsize, hn, hf, ht, hms, hserv, rfl⟩ := hd
    have hv := visit_complete sha1 [] _ _ enc h s code frames fs t stop n ha hsends hsize hn hf ht ms hms ps hserv hs hi
    have hc := connect_complete _ _ enc h s code _ ha (fun _ => hsends 2)
    obtain ⟨links, hl, hask⟩ := ask_run sha1 H env encrypt prefer noEncrypt peer ih
    have hmode : links 0 = (env.raws 0).link H (env.chances 0) ih enc := by
      rw [hl, henc, hreq]
      congr 1
      generalize queryPeerMode encrypt prefer noEncrypt = o
      generalize env.pref = p
      rcases o with _ | ⟨_ | _ | _⟩ <;> cases p <;> rfl
    rw [hask, hreq]
    generalize queryPeerMode encrypt prefer noEncrypt = o at *
    generalize env.pref = p at *
    unfold infoGetterRun
    rcases o with _ | ⟨_ | _ | _⟩ <;> cases p <;> simp only [wish, firstEncrypts] at henc <;> subst henc <;>
      simp only [getCryptoMode, CryptoPreference.getCryptoMode, hmode] <;>
      first
      | exact hv
      | (split
         · rename_i c hcc; rw [hcc] at hc; cases hc
         · exact hv)
  unfold queryPeer
  rw [hrun]
  obtain ⟨name, -, hsv⟩ := save_spec env.lossy ipText env.parent (TorrentFile.new env.now ⟨ih, d⟩ [] []) hi template
  obtain ⟨es, hes⟩ : ∃ es, (TorrentFile.new env.now ⟨ih, d⟩ [] []).save env.lossy ipText env.parent template = some es := by
    rw [hsv]
    split
    · exact ⟨_, rfl⟩
    · split <;> exact ⟨_, rfl⟩
  simp only [hes, performEffects_ok hok]
  exact ⟨_, rfl⟩

/-- **C68.** `--encrypt` makes every connection attempt encrypted and `--no-encrypt` none, whatever the configuration says. -/
theorem query_peer_flags (sha1 H : Bytes → Bytes) (env : QueryPeerEnv) (peer : Peer) (ih : InfoHash) :
    (∀ a ∈ (env.ask sha1 H true false false peer ih).1, a.encrypt = true) ∧
    (∀ a ∈ (env.ask sha1 H false false true peer ih).1, a.encrypt = false) := by
  constructor
  · obtain ⟨links, -, hask⟩ := ask_run sha1 H env true false false peer ih
    rw [hask]
    exact always_encrypts (run_spec sha1 links _ (some .encrypt) env.pref _)
  · obtain ⟨links, -, hask⟩ := ask_run sha1 H env false false true peer ih
    rw [hask]
    exact never_encrypts (run_spec sha1 links _ (some .plain) env.pref _)

end

/-! ### Examples -/

example : (printPeers false (fun _ => none) [⟨.v4 ⟨⟨0x01020304#32⟩, 6881⟩, none, false⟩, ⟨.v6 ⟨⟨1#128⟩, 80⟩, none, true⟩]).1 =
    ascii "1.2.3.4:6881\n[::1]:80\n" := by decide +kernel

example : (printPeers true (fun _ => none) [⟨.v4 ⟨⟨0x01020304#32⟩, 6881⟩, none, false⟩]).1 =
    ascii "{\"host\": \"1.2.3.4\", \"port\": 6881, \"id\": null, \"requires_crypto\": false}\n" := by decide +kernel

-- `print_broken`: the pipe is closed after the first line
example : printPeers false (fun i => if i = 1 then some 0 else none) [⟨.v4 ⟨⟨0x01020304#32⟩, 6881⟩, none, false⟩, ⟨.v6 ⟨⟨1#128⟩, 80⟩, none, true⟩] =
    (ascii "1.2.3.4:6881\n", .crash) := by decide +kernel

-- `query_tracker_udp`: a run whose result is printed successfully
example : ∃ tr s r, AskRun (fun _ => []) (fun _ => none) (.udp ⟨"tracker.example".toList, 6969, []⟩)
      (sampleGetter.withFlags exHash true false false) tr s ∧ r ∈ askResults tr ∧
    (queryTracker false (fun _ => none) r).2 = .success ∧ (queryTracker false (fun _ => none) r).1 = ascii "1.2.3.4:6881\n5.6.7.8:80\n" := by
  obtain ⟨tr, s, r1, r2, h1, -, h2, -, -, h3, -⟩ := ask_answers_udp (lossy := fun _ => []) (parseIp := fun _ => none)
    ⟨"tracker.example".toList, 6969, []⟩ (sampleGetter.withFlags exHash true false false)
    ⟨some [.v4 ⟨⟨0x0A000001#32⟩, 6969⟩], fun _ => true, fun _ => true⟩ (.v4 ⟨⟨0x0A000001#32⟩, 6969⟩) _
    rfl rfl rfl 0 0 1 1 2 17 18 0 0 0 0xAB [0, 0, 0, 0, 0, 0, 0, 17, 0, 0, 0, 0, 0, 0, 0, 0xAB]
    [0, 0, 0, 1, 0, 0, 0, 18, 0, 0, 7, 8, 0, 0, 0, 1, 0, 0, 0, 2, 1, 2, 3, 4, 0x1a, 0xe1, 5, 6, 7, 8, 0, 80] 0x708 1 2
    [.v4 ⟨⟨0x01020304#32⟩, 6881⟩, .v4 ⟨⟨0x05060708#32⟩, 80⟩] (by unfold IsConnectResponse At Field; decide +kernel)
    ⟨by unfold At Field; decide +kernel, by unfold At Field; decide +kernel, by unfold At Field; decide +kernel, by unfold At Field; decide +kernel,
      by unfold At Field; decide +kernel, ⟨[1, 2, 3, 4, 0x1a, 0xe1], [5, 6, 7, 8, 0, 80], rfl, by unfold IsCompact IsCompact4; decide +kernel,
        [5, 6, 7, 8, 0, 80], [], rfl, by unfold IsCompact IsCompact4; decide +kernel, rfl⟩, by simp [SockAddr.isV6]⟩
  exact ⟨tr, s, _, h1, by rw [h3]; exact List.mem_singleton.2 rfl, rfl, by decide +kernel⟩

/-- Surroundings of `query-peer`, for examples: the peer serves the metadata `de`. -/
def exQueryEnv : QueryPeerEnv :=
  { localId := ⟨List.replicate 20 9, by decide⟩, pref := .prefer, now := .ok 0, lossy := fun _ => [], parent := fun _ => none,
    chances := fun _ => ⟨1, [], 0, fun _ => 1, 0, 30⟩, raws := fun _ => ⟨.ok, [.data exLink.incoming], fun _ => .ok⟩, fileOk := fun _ => true }

-- `query_tracker_http`: likewise
example : ∃ tr s r, AskRun (fun _ => []) (fun _ => none) (.http ⟨"http".toList, some (.domain "tracker.example".toList), none, "/announce".toList, none, none, []⟩)
      (sampleGetter.withFlags exHash false false true) tr s ∧ r ∈ askResults tr ∧
    (queryTracker false (fun _ => none) r).2 = .success ∧ (queryTracker false (fun _ => none) r).1 = ascii "105.105.105.105:28784\n" := by
  have hb : httpResult (fun _ => []) (fun _ => none) (.body (ascii "d8:intervali1800e5:peers6:iiiippe")) =
      .ok ⟨1800, [⟨.v4 ⟨⟨0x69696969#32⟩, 0x7070#16⟩, none, false⟩], none, none, none, none, none, none, none⟩ := by
    have : (httpResult (fun _ => []) (fun _ => none) (.body (ascii "d8:intervali1800e5:peers6:iiiippe"))).toOption =
      some ⟨1800, [⟨.v4 ⟨⟨0x69696969#32⟩, 0x7070#16⟩, none, false⟩], none, none, none, none, none, none, none⟩ := by decide +kernel
    generalize httpResult (fun _ => []) (fun _ => none) (.body (ascii "d8:intervali1800e5:peers6:iiiippe")) = y at this
    cases y with
    | ok y => cases this; rfl
    | error => cases this
  obtain ⟨kvs, -, hk, hd, hr⟩ := (httpResult_ok _ _ _ _).1 hb
  obtain ⟨tr, s, -, h1, -, -, -, h2, -⟩ := ask_answers_http (lossy := fun _ => []) (parseIp := fun _ => none)
    ⟨"http".toList, some (.domain "tracker.example".toList), none, "/announce".toList, none, none, []⟩ (sampleGetter.withFlags exHash false false true)
    kvs hk hd _ hr
  exact ⟨tr, s, _, h1, by rw [h2]; exact List.mem_singleton.2 rfl, by decide +kernel, by decide +kernel⟩

-- `query_peer_finds`, and with it `query_peer_writes`
example : ∃ effects, queryPeer (fun _ => List.replicate 20 7) (fun _ => List.replicate 20 0) exQueryEnv false false true [.name]
    ⟨.v4 ⟨⟨0x01020304#32⟩, 6881⟩, none, false⟩ exHash = some (effects, .success) := by
  have hl : (exQueryEnv.raws 0).link (fun _ => List.replicate 20 0) (exQueryEnv.chances 0) exHash false = { exLink with crypto := .ok } := by
    have : (restOf [.data exLink.incoming]) = ([exLink.incoming], .stall) := rfl
    unfold RawLink.link
    simp only [exQueryEnv, Bool.false_eq_true, if_false, this, List.flatten_cons, List.flatten_nil, List.append_nil]
    rfl
  refine query_peer_finds (arg := "1.2.3.4:6881".toList) (d := ascii "de") (enc := false) (by decide +kernel) rfl ?_ rfl
    ⟨[], by decide +kernel, by simp [Canonical, SortedKeys, CanonicalDict], by decide +kernel⟩ (fun _ => rfl)
  rw [hl]
  obtain ⟨h, s, code, frames, fs, t, stop, n, ms, ps, ha, hsends, hsize, hn, hf, ht, hms, hserv, hd⟩ := exDelivers
  refine ⟨h, s, code, frames, fs, t, stop, n, ms, ps, ?_, hsends, hsize, hn, hf, ht, hms, hserv, hd⟩
  obtain ⟨r0, f, ⟨⟨⟨a1, a2⟩, a3⟩, a4⟩, a5⟩ := ha
  exact ⟨r0, f, ⟨⟨⟨a1, fun h => by cases h⟩, a3⟩, a4⟩, a5⟩

end Demag.Props
