import Verif.Spec.Connect
import Verif.Props.Session
import Verif.Props.PeerExt

/-!
# C51, C31: connecting to a peer
-/

namespace Demag.Props

open Demag Demag.Spec

/-! ### All frames -/

theorem isFrames_length {ps : List Bytes} {bs : Bytes} (h : IsFrames ps bs) : ps.length ≤ bs.length := by
  induction h with
  | nil => simp
  | cons hh _ _ ih => have := hh.1; simp only [List.length_cons, List.length_append]; omega

theorem allFrames_spec (ending : Ending) (ps : List Bytes) (fs t : Bytes) (stop : Stop) (hf : IsFrames ps fs)
    (ht : NoFrame ending t stop) : allFrames ending (fs ++ t) = (ps, stop) := by
  have hl := isFrames_length hf
  unfold allFrames
  have hr : ∀ r ∈ (if (fs ++ t).isEmpty then [] else [fs ++ t]), r ≠ [] := by
    intro r hr
    split at hr
    · cases hr
    · rename_i h
      rw [List.mem_singleton] at hr
      rw [hr]; intro h'; rw [h'] at h; exact h rfl
  have hb : (if (fs ++ t).isEmpty then [] else [fs ++ t]).flatten = fs ++ t := by
    split
    · rename_i h; rw [List.isEmpty_iff] at h; rw [h]; rfl
    · simp
  have hs := recvN_spec ending ps fs t hf _ hr hb ((fs ++ t).length + 1)
  have hlen : ¬ (fs ++ t).length + 1 ≤ ps.length := by rw [List.length_append]; omega
  have htk : ps.take ((fs ++ t).length + 1) = ps := List.take_of_length_le (by omega)
  rcases ht with ⟨h1, rfl⟩ | ⟨left, h1, rfl⟩
  · rw [hs.1 h1, htk, if_neg hlen]; rfl
  · rw [hs.2 left h1, htk, if_neg hlen]; rfl

theorem frames_split (ending : Ending) (bs : Bytes) :
    ∃ ps fs t stop, bs = fs ++ t ∧ IsFrames ps fs ∧ NoFrame ending t stop := by
  obtain ⟨ps, fs, t, h1, h2, h3 | ⟨left, h3⟩⟩ := frames_exist bs
  · exact ⟨ps, fs, t, _, h1, h2, .inl ⟨h3, rfl⟩⟩
  · exact ⟨ps, fs, t, _, h1, h2, .inr ⟨left, h3, rfl⟩⟩

/-- Either there is a first frame or there is none. -/
theorem allFrames_cases (ending : Ending) (bs : Bytes) :
    (∃ f rest, FirstFrame bs f rest ∧ allFrames ending bs = (f :: (allFrames ending rest).1, (allFrames ending rest).2)) ∨
    (∃ stop, NoFrame ending bs stop ∧ allFrames ending bs = ([], stop)) := by
  obtain ⟨ps, fs, t, stop, h1, h2, h3⟩ := frames_split ending bs
  subst h1
  have := allFrames_spec ending ps fs t stop h2 h3
  cases h2 with
  | nil => exact .inr ⟨stop, h3, this⟩
  | @cons p ps h bs' hh hl hr =>
    refine .inl ⟨p, bs' ++ t, ⟨h ++ p, by simpa using IsFrames.cons hh hl .nil, by simp⟩, ?_⟩
    rw [allFrames_spec ending ps bs' t stop hr h3]
    exact this

/-! ### Our side -/

/-- The local registry. -/
def reg42 : Bep10Registry := ⟨[(.metadata, 42)], [(42, .metadata)]⟩

theorem localRegistry_eq : localRegistry = some reg42 := rfl

theorem reg42_for (c : BitVec 8) : reg42.forMessageId c = if c = 42 then some .metadata else none := by
  unfold reg42 RegistryOf.forMessageId HMap.get
  by_cases h : c = 42
  · subst h; rfl
  · rw [if_neg h]
    have h' : decide ((42 : BitVec 8) = c) = false := decide_eq_false (fun e => h e.symm)
    simp only [List.find?, h', Option.map_none]

theorem ourExtendedHandshake_eq (ctx : PeerCtx) : ourExtendedHandshake ctx reg42 = ourGreeting ctx.peerIp := by
  unfold ourExtendedHandshake ourGreeting
  have : reg42.toM Bep10Extension.display = [("ut_metadata".toList, 42)] := by decide
  rw [this]; rfl

theorem ipToCompact_length (ip : IpAddr) : (ipToCompact ip).length ≤ 16 := by
  cases ip <;> simp [ipToCompact, Ipv4.octets, Ipv6.octets]

theorem encBytes_length (b : Bytes) (h : b.length < 100) : (encBytes b).length ≤ 103 := by
  have := dec_length_le 2 b.length (by omega) (by omega)
  unfold encBytes
  simp only [List.length_append, List.length_cons]; omega

theorem ourGreeting_encode (ip : IpAddr) (r : Bep10Registry) :
    ∃ b, (Message.extended (.handshake (ourGreeting ip))).encode r = .ok b ∧ b.length ≤ 65535 := by
  have hs : ∀ m, (ourGreeting ip).m = some m → TextSorted m := by
    intro m hm; cases hm; exact trivial
  obtain ⟨h1, -, -⟩ := extendedHandshake_encode_spec (ourGreeting ip) hs
  refine ⟨CoreMessage.encode (.extended 0 (benc (.dict (handshakeDict (ourGreeting ip))))), ?_, ?_⟩
  · simp only [Message.encode, ExtendedMessage.encode, h1]; rfl
  · have hl : (benc (.dict (handshakeDict (ourGreeting ip)))).length ≤ 1000 := by
      have e1 : (encBytes (keyBytes "m")).length = 3 := by decide +kernel
      have e2 : (encBytes (keyBytes "v")).length = 3 := by decide +kernel
      have e3 : (encBytes (keyBytes "yourip")).length = 8 := by decide +kernel
      have e4 : (benc (.dict (List.map (fun kv : Text × BitVec 8 => (utf8 kv.1, Ben.int kv.2.toNat)) [("ut_metadata".toList, 42)]))).length = 20 := by
        decide +kernel
      have e5 : (encBytes (utf8 "demagnetize 0.7.0".toList)).length = 20 := by decide +kernel
      have e6 := encBytes_length (ipToCompact ip) (by have := ipToCompact_length ip; omega)
      unfold handshakeDict ourGreeting
      simp only [Option.map_some, Option.map_none, Option.toList, List.nil_append, List.cons_append]
      rw [benc]
      simp only [bencDict, List.length_cons, List.length_append, List.length_nil, e1, e2, e3, e4]
      simp only [benc, e5]
      omega
    simp only [CoreMessage.encode, List.length_append]
    have : (putU8 0x14).length = 1 := rfl
    have : (putU8 (0 : BitVec 8)).length = 1 := rfl
    omega

/-! ### The extended handshake of the peer -/

/-- Which frames are extended handshakes. -/
theorem decode_handshake_iff (f : Bytes) (r : Bep10Registry) (s : ExtendedHandshake) :
    Message.decode f r = .ok (.extended (.handshake s)) ↔ IsGreeting f s := by
  unfold IsGreeting
  constructor
  · intro h
    unfold Message.decode at h
    simp only [bind, Except.bind] at h
    split at h
    · cases h
    · rename_i m hm
      split at h
      · rename_i id payload
        simp only [ExtendedMessage.decode] at h
        split at h
        · cases h
        · rename_i x hx
          cases h
          split at hx
          · rename_i hid
            subst hid
            simp only [bind, Except.bind] at hx
            split at hx
            · cases hx
            · rename_i s' hs
              cases hx
              obtain ⟨kvs, rfl, hc, hd, hden⟩ := (extendedHandshake_decode_spec _ _).1 hs
              refine ⟨kvs, ?_, hc, hd, hden⟩
              rw [coreMessage_decode_sound f _ hm]; rfl
          · split at hx
            · cases hx
            · simp only [bind, Except.bind] at hx
              split at hx
              · cases hx
              · cases hx
      · cases h
  · rintro ⟨kvs, rfl, hc, hd, hden⟩
    have h1 : CoreMessage.decode ([20, 0] ++ benc (.dict kvs)) = .ok (.extended 0 (benc (.dict kvs))) := by
      have := coreMessage_roundtrip (.extended 0 (benc (.dict kvs)))
      exact this
    have h2 := (extendedHandshake_decode_spec (benc (.dict kvs)) s).2 ⟨kvs, rfl, hc, hd, hden⟩
    unfold Message.decode
    simp only [h1, bind, Except.bind, ExtendedMessage.decode, h2]
    rfl

theorem greeting_sorted {f : Bytes} {s : ExtendedHandshake} (h : IsGreeting f s) : ∀ m, s.m = some m → TextSorted m := by
  obtain ⟨kvs, -, hc, hd, hden⟩ := h
  exact extendedHandshake_decode_sorted _ s ((extendedHandshake_decode_spec _ s).2 ⟨kvs, rfl, hc, hd, hden⟩)

theorem hmap_get_mem {m : List (Text × BitVec 8)} (hs : TextSorted m) (k : Text) (c : BitVec 8) :
    HMap.get m k = some c ↔ (k, c) ∈ m :=
  ⟨HMap.get_mem, HMap.mem_get (textSorted_nodup hs)⟩

/-- The registry of the peer. -/
theorem intoRegistry_cases {f : Bytes} {s : ExtendedHandshake} (h : IsGreeting f s) :
    (MetadataCode s 0 ∧ s.intoRegistry = .error .handshake) ∨
    ((∀ c, ¬ MetadataCode s c) ∧ ∃ r, s.intoRegistry = .ok r ∧ r.contains .metadata = false) ∨
    (∃ c r, c ≠ 0 ∧ MetadataCode s c ∧ s.intoRegistry = .ok r ∧ r.contains .metadata = true ∧
      r.getMessageId .metadata = some c) := by
  have hs := greeting_sorted h
  cases hm : s.m with
  | none =>
    refine .inr (.inl ⟨?_, .new, ?_, rfl⟩)
    · rintro c ⟨m, h1, -⟩; rw [hm] at h1; cases h1
    · simp [ExtendedHandshake.intoRegistry, hm]
  | some m =>
    have hsm := hs m hm
    have hf := fromM_spec m hsm
    have hi : s.intoRegistry = RegistryOf.fromM Bep10Extension.fromStr m := by
      simp [ExtendedHandshake.intoRegistry, hm]
    have hmc : ∀ c, MetadataCode s c ↔ HMap.get m "ut_metadata".toList = some c := by
      intro c
      rw [hmap_get_mem hsm]
      constructor
      · rintro ⟨m', h1, h2⟩; rw [hm] at h1; cases h1; exact h2
      · intro h; exact ⟨m, hm, h⟩
    cases hg : HMap.get m "ut_metadata".toList with
    | none =>
      rw [hg] at hf
      refine .inr (.inl ⟨?_, .new, by rw [hi]; exact hf, rfl⟩)
      intro c hc
      rw [hmc, hg] at hc; cases hc
    | some c =>
      rw [hg] at hf
      simp only at hf
      split at hf
      · rename_i h0
        subst h0
        exact .inl ⟨(hmc 0).2 hg, by rw [hi]; exact hf⟩
      · rename_i h0
        obtain ⟨r, h1, h2, -⟩ := hf
        refine .inr (.inr ⟨c, r, h0, (hmc c).2 hg, by rw [hi]; exact h1, ?_, h2⟩)
        show (r.getMessageId .metadata).isSome = true
        rw [h2]; rfl

/-! ### Connecting -/

/-- What is known after a successful connection. -/
structure Connected (l : Link) (ctx : PeerCtx) (encrypt : Bool) (ours : Handshake) (size : Option (BitVec 32)) (c : Chan) : Prop where
  agreed : ∃ h s code rest, Agreed l ctx encrypt h s code rest ∧ size = s.metadataSize ∧
    c.remoteReg.getMessageId .metadata = some code ∧ (c.frames, c.stop) = allFrames l.ending rest ∧
    c.nsent = (if h.extensions.has .fast then 3 else 2) ∧ c.trace = allGreetings ctx ours h s
  localReg : c.localReg = reg42

theorem ours_ok (ctx : PeerCtx) : OurHandshake ctx (Handshake.new supportedExtensions ctx.infoHash ctx.localId) := by
  refine ⟨rfl, rfl, fun e => ?_⟩
  have := fromIter_has supportedExtensions e
  simp only [Handshake.new]
  rw [this]
  simp [supportedExtensions]

theorem exts_has (t : ExtensionSet) (e : Extension) (he : e = .bep10 ∨ e = .fast) :
    ((ExtensionSet.fromIter supportedExtensions).and t).has e = t.has e := by
  rw [and_has, (fromIter_has supportedExtensions e).2 (by rcases he with rfl | rfl <;> decide)]
  rfl

theorem layout_length {h : Handshake} {hs : Bytes} (hl : HandshakeLayout h hs) : hs.length = 68 := by
  have h1 := handshake_decode_spec hs h
  have h2 := (handshake_encode_spec h)
  have : hs = h.encode := by
    obtain ⟨r, rfl, hr⟩ := hl
    obtain ⟨r', he, hr'⟩ := h2.2
    have : r = r' := by
      have := beBytes_beValue r
      have h' := beBytes_beValue r'
      rw [hr.1, hr.2] at this
      rw [hr'.1, hr'.2] at h'
      rw [← this, ← h']
    rw [he, this]
  rw [this]; exact h2.1

/-- From the extended handshake on. -/
theorem connectExtended_spec (l : Link) (ctx : PeerCtx) (encrypt : Bool) (ours h : Handshake) (rest : Bytes) (exts : ExtensionSet)
    (c : Chan) (hsh : Shaken l encrypt h rest) (hih : h.infoHash = ctx.infoHash) (hb : h.extensions.has .bep10 = true)
    (hfast : exts.has .fast = h.extensions.has .fast)
    (htr : c.trace = [.sentHandshake ours, .gotHandshake h]) (hns : c.nsent = 1) (hlr : c.localReg = reg42)
    (hfr : (c.frames, c.stop) = allFrames l.ending rest) :
    Connects l ctx encrypt ours (fun f m => Message.decode f reg42 = .ok m) (fun f e => Message.decode f reg42 = .error e)
      (connectExtended l ctx exts c).1.trace (connectExtended l ctx exts c).2 ∧
    ∀ size, (connectExtended l ctx exts c).2 = .ok size → Connected l ctx encrypt ours size (connectExtended l ctx exts c).1 := by
  obtain ⟨b, hbe, hbl⟩ := ourGreeting_encode ctx.peerIp c.remoteReg
  obtain ⟨w, -, hsend⟩ := send_eq l c _ b hbe hbl
  have he : ourExtendedHandshake ctx c.localReg = ourGreeting ctx.peerIp := by rw [hlr, ourExtendedHandshake_eq]
  unfold connectExtended
  rw [he, hsend, hns]
  cases h1 : l.sends 1 with
  | fail => exact ⟨by rw [htr]; exact .unsent1 hsh hih hb h1, by intro _ h; cases h⟩
  | hang => exact ⟨by rw [htr]; exact .stuck1 hsh hih hb h1, by intro _ h; cases h⟩
  | ok =>
    have hgr : Greeted l ctx encrypt h rest := ⟨hsh, hih, hb, h1⟩
    simp only
    rcases allFrames_cases l.ending rest with ⟨f, rest', hff, haf⟩ | ⟨stop, hno, haf⟩
    · rw [haf] at hfr
      have hc1 : c.frames = f :: (allFrames l.ending rest').1 := congrArg Prod.fst hfr
      have hc2 : c.stop = (allFrames l.ending rest').2 := congrArg Prod.snd hfr
      cases hd : Message.decode f reg42 with
      | error e =>
        have hrecv : (sentChan c (.extended (.handshake (ourGreeting ctx.peerIp))) w).recv =
            ({ sentChan c (.extended (.handshake (ourGreeting ctx.peerIp))) w with frames := (allFrames l.ending rest').1 },
              .err (.message e)) := by
          simp [Chan.recv, sentChan, hc1, hlr, hd]
        rw [hrecv]
        refine ⟨?_, by intro _ h; cases h⟩
        simp only [sentChan, htr, List.cons_append, List.nil_append]
        exact .garbled hgr hff hd
      | ok m =>
        have hrecv : (sentChan c (.extended (.handshake (ourGreeting ctx.peerIp))) w).recv =
            ({ sentChan c (.extended (.handshake (ourGreeting ctx.peerIp))) w with
                frames := (allFrames l.ending rest').1,
                trace := c.trace ++ [.sent (.extended (.handshake (ourGreeting ctx.peerIp)))] ++ [.received m] }, .ok m) := by
          simp [Chan.recv, sentChan, hc1, hlr, hd]
        rw [hrecv]
        by_cases hm : ∃ s, m = .extended (.handshake s)
        · obtain ⟨s, rfl⟩ := hm
          have hg := (decode_handshake_iff f reg42 s).1 hd
          simp only
          rcases intoRegistry_cases hg with ⟨hz, hr⟩ | ⟨hno, r, hr, hct⟩ | ⟨code, r, h0, hmc, hr, hct, hget⟩
          · rw [hr]
            refine ⟨?_, by intro _ h; cases h⟩
            simp only [htr, List.cons_append, List.nil_append]
            exact .zeroCode hgr hff hg hz
          · rw [hr]
            simp only [hct, Bool.not_false, ↓reduceIte]
            refine ⟨?_, by intro _ h; cases h⟩
            simp only [htr, List.cons_append, List.nil_append]
            exact .noMetadata hgr hff hg hno
          · have hag : Agreed l ctx encrypt h s code rest' := ⟨rest, f, hgr, hff, hg, hmc, h0⟩
            rw [hr]
            simp only [hct, Bool.not_true, Bool.false_eq_true, ↓reduceIte, hfast]
            cases hfa : h.extensions.has .fast with
            | false =>
              simp only [Bool.false_eq_true, ↓reduceIte]
              refine ⟨?_, ?_⟩
              · simp only [htr, List.cons_append, List.nil_append]
                exact .slow hag hfa
              · intro size hsz
                cases hsz
                refine ⟨⟨h, s, code, rest', hag, rfl, hget, ?_, ?_, ?_⟩, hlr⟩
                · show ((allFrames l.ending rest').1, c.stop) = _
                  rw [hc2]
                · rw [hfa]; show c.nsent + 1 = _; rw [hns]; rfl
                · simp [allGreetings, greetings, sentChan, htr, hfa]
            | true =>
              simp only [↓reduceIte]
              have hhn : (Message.core .haveNone).encode r = .ok [0x0F] := rfl
              obtain ⟨w2, -, hsend2⟩ := send_eq l
                { sentChan c (.extended (.handshake (ourGreeting ctx.peerIp))) w with
                  frames := (allFrames l.ending rest').1,
                  trace := c.trace ++ [.sent (.extended (.handshake (ourGreeting ctx.peerIp)))] ++
                    [.received (.extended (.handshake s))],
                  remoteReg := r } (.core .haveNone) [0x0F] hhn (by decide)
              simp only [sentChan] at hsend2
              simp only [sentChan]
              rw [hsend2, hns]
              cases h2 : l.sends (1 + 1) with
              | fail =>
                refine ⟨?_, by intro _ h; cases h⟩
                simp only [htr, List.cons_append, List.nil_append]
                exact .unsent2 hag hfa h2
              | hang =>
                refine ⟨?_, by intro _ h; cases h⟩
                simp only [htr, List.cons_append, List.nil_append]
                exact .stuck2 hag hfa h2
              | ok =>
                refine ⟨?_, ?_⟩
                · simp only [htr, List.cons_append, List.nil_append]
                  exact .fast hag hfa h2
                · intro size hsz
                  cases hsz
                  refine ⟨⟨h, s, code, rest', hag, rfl, hget, ?_, ?_, ?_⟩, hlr⟩
                  · show ((allFrames l.ending rest').1, c.stop) = _
                    rw [hc2]
                  · rw [hfa]; rfl
                  · simp [allGreetings, greetings, htr, hfa]
        · split
          · rename_i heq; cases heq
          · rename_i heq; cases heq
          · rename_i heq; cases heq
          · rename_i heq; cases heq; exact absurd ⟨_, rfl⟩ hm
          · rename_i heq
            cases heq
            refine ⟨?_, by intro _ h; cases h⟩
            simp only [htr, List.cons_append, List.nil_append]
            refine .rude hgr hff hd ?_
            intro s hs
            rw [(decode_handshake_iff f reg42 s).2 hs] at hd
            cases hd
            exact hm ⟨s, rfl⟩
    · rw [haf] at hfr
      have hc1 : c.frames = [] := congrArg Prod.fst hfr
      have hc2 : c.stop = stop := congrArg Prod.snd hfr
      have hno' : NoFrame l.ending rest c.stop := by rw [hc2]; exact hno
      obtain ⟨t1, -, -, hcase⟩ := recv_none (sentChan c (.extended (.handshake (ourGreeting ctx.peerIp))) w)
        (by intro c' m h; simp only [Chan.recv, sentChan, hc1] at h; split at h <;> cases h)
      simp only [sentChan] at t1 hcase
      generalize hrv : (sentChan c (.extended (.handshake (ourGreeting ctx.peerIp))) w).recv = rv
      simp only [sentChan] at hrv
      rw [hrv] at t1 hcase
      obtain ⟨c', r⟩ := rv
      simp only at t1 hcase
      rcases hcase with ⟨_, h2, h⟩ | ⟨_, h2, h⟩ | ⟨_, h2, h3, h⟩ | ⟨f, fs, e', h1', h2, h⟩
      · subst h
        refine ⟨?_, by intro _ h; cases h⟩
        simp only [t1, htr, List.cons_append, List.nil_append]
        exact .silent hgr (h2 ▸ hno')
      · subst h
        refine ⟨?_, by intro _ h; cases h⟩
        simp only [t1, htr, List.cons_append, List.nil_append]
        exact .closed hgr (h2 ▸ hno')
      · subst h
        refine ⟨?_, by intro _ h; cases h⟩
        simp only [t1, htr, List.cons_append, List.nil_append]
        exact .broken hgr hno' h2 h3
      · rw [hc1] at h1'; cases h1'

/-- **C51.** Connecting performs the checks in the order of `Connects`, exactly as prescribed there: nothing but the
handshakes (and `HaveNone`, if both sides support the Fast extension) is ever sent, and it succeeds only if the
handshake of the peer is about the requested torrent, the peer supports BEP 10, its first message is an extended
handshake, and that registers `ut_metadata` under a code other than 0. -/
theorem connect_spec (l : Link) (ctx : PeerCtx) (encrypt : Bool) :
    ∃ ours, OurHandshake ctx ours ∧
      Connects l ctx encrypt ours (fun f m => Message.decode f reg42 = .ok m) (fun f e => Message.decode f reg42 = .error e)
        (connect l ctx encrypt).1.trace (connect l ctx encrypt).2 ∧
      ∀ size, (connect l ctx encrypt).2 = .ok size → Connected l ctx encrypt ours size (connect l ctx encrypt).1 := by
  refine ⟨_, ours_ok ctx, ?_⟩
  unfold connect
  simp only
  cases hc : l.connect with
  | fail => exact ⟨.refused hc, by intro _ h; cases h⟩
  | hang => exact ⟨.unreachable hc, by intro _ h; cases h⟩
  | ok =>
    simp only
    cases hcr : (if encrypt = true then l.crypto else SecureOutcome.ok) with
    | fail =>
      cases encrypt with
      | false => cases hcr
      | true => exact ⟨.cryptoFail hc rfl hcr, by intro _ h; cases h⟩
    | hang =>
      cases encrypt with
      | false => cases hcr
      | true => exact ⟨.cryptoHang hc rfl hcr, by intro _ h; cases h⟩
    | overflow =>
      cases encrypt with
      | false => cases hcr
      | true => exact ⟨.cryptoPanic hc rfl hcr, by intro _ h; cases h⟩
    | ok =>
      have hready : Ready l encrypt := by
        refine ⟨hc, ?_⟩
        intro h; rw [h] at hcr; exact hcr
      simp only [Chan.write]
      cases h0 : l.sends 0 with
      | fail => exact ⟨.unsent0 hready h0, by intro _ h; cases h⟩
      | hang => exact ⟨.stuck0 hready h0, by intro _ h; cases h⟩
      | ok =>
        simp only [List.nil_append, Nat.zero_add]
        by_cases hlen : l.incoming.length < 68
        · rw [if_pos hlen]
          have := Connects.short (ctx := ctx) (ours := Handshake.new supportedExtensions ctx.infoHash ctx.localId)
            (message := fun f m => Message.decode f reg42 = .ok m) (garbage := fun f e => Message.decode f reg42 = .error e)
            hready h0 hlen
          cases he : l.ending with
          | eof => rw [he] at this; exact ⟨this, by intro _ h; cases h⟩
          | ioError => rw [he] at this; exact ⟨this, by intro _ h; cases h⟩
          | stall => rw [he] at this; exact ⟨this, by intro _ h; cases h⟩
        · rw [if_neg hlen]
          cases hd : Handshake.decode (l.incoming.take 68) with
          | error e =>
            refine ⟨.foreign hready h0 (by omega) ?_, by intro _ h; cases h⟩
            intro h hl
            rw [(handshake_decode_spec _ h).2 hl] at hd; cases hd
          | ok theirs =>
            have hlay := (handshake_decode_spec _ theirs).1 hd
            have hsh : Shaken l encrypt theirs (l.incoming.drop 68) :=
              ⟨hready, h0, l.incoming.take 68, (List.take_append_drop 68 _).symm, hlay⟩
            simp only [List.cons_append, List.nil_append]
            by_cases hih : theirs.infoHash = ctx.infoHash
            · rw [if_neg (by simpa using hih)]
              rw [exts_has _ .bep10 (.inl rfl)]
              cases hb : theirs.extensions.has .bep10 with
              | false => exact ⟨.noBep10 hsh hih hb, by intro _ h; cases h⟩
              | true =>
                simp only [Bool.not_true, Bool.false_eq_true, ↓reduceIte, localRegistry_eq]
                exact connectExtended_spec l ctx encrypt _ theirs (l.incoming.drop 68) _ _ hsh hih hb
                  (exts_has _ .fast (.inr rfl)) rfl rfl rfl rfl
            · rw [if_pos (by simpa using hih)]
              exact ⟨.mismatch hsh hih, by intro _ h; cases h⟩

/-! ### Whole runs -/

/-- The events of connecting contain no request. -/
theorem connects_no_request {l ctx enc ours message garbage es r}
    (h : Connects l ctx enc ours message garbage es r) : requestsSent es = [] := by
  cases h <;> rfl

/-- A successful connection has gone through all the greetings. -/
theorem connects_ok {l ctx enc ours message garbage es size}
    (h : Connects l ctx enc ours message garbage es (.ok size)) :
    ∃ h s code rest, Agreed l ctx enc h s code rest ∧ size = s.metadataSize ∧
      es = allGreetings ctx ours h s := by
  generalize hz : (Res.ok size : Res PeerError (Option (BitVec 32))) = z at h
  cases h with
  | slow ha hf => cases hz; exact ⟨_, _, _, _, ha, rfl, by simp [allGreetings, hf]⟩
  | fast ha hf _ => cases hz; exact ⟨_, _, _, _, ha, rfl, by simp [allGreetings, hf]⟩
  | short => split at hz <;> cases hz
  | _ => cases hz

theorem connects_panic {l ctx enc ours message garbage es}
    (h : Connects l ctx enc ours message garbage es .panic) : l.connect = .ok ∧ enc = true ∧ l.crypto = .overflow ∧ es = [] := by
  generalize hz : (Res.panic : Res PeerError (Option (BitVec 32))) = z at h
  cases h with
  | cryptoPanic h1 h2 h3 => exact ⟨h1, h2, h3, rfl⟩
  | short => split at hz <;> cases hz
  | _ => cases hz

theorem contains_of_getMessageId {r : Bep10Registry} {code : BitVec 8} (h : r.getMessageId .metadata = some code) :
    r.contains .metadata = true := by
  unfold RegistryOf.contains HMap.contains
  unfold RegistryOf.getMessageId at h
  rw [h]; rfl

/-- One visit. -/
theorem visit_spec (sha1 : Bytes → Bytes) (ctx : PeerCtx) (before : List Attempt) (l : Link) (encrypt : Bool) :
    ∃ es, (finishRun sha1 ctx before l encrypt (connect l ctx encrypt)).1 = before ++ [⟨encrypt, es⟩] ∧
      Visit sha1 IsInfoDict l ctx encrypt (fun f m => Message.decode f reg42 = .ok m)
        (fun f e => Message.decode f reg42 = .error e) es
        (finishRun sha1 ctx before l encrypt (connect l ctx encrypt)).2 := by
  obtain ⟨ours, ho, hc, hok⟩ := connect_spec l ctx encrypt
  generalize hr : connect l ctx encrypt = cr at hc hok
  obtain ⟨c, r⟩ := cr
  cases r with
  | err e => exact ⟨_, rfl, .failed ho hc⟩
  | hang => exact ⟨_, rfl, .late ho hc⟩
  | panic => exact ⟨_, rfl, .panicked ho hc⟩
  | ok size =>
    obtain ⟨⟨h, s, code, rest, hag, hsz, hget, hfr, hns, htr⟩, hlr⟩ := hok size rfl
    simp only at hfr hns htr hget hlr
    subst hsz
    cases hm : s.metadataSize with
    | none =>
      refine ⟨_, rfl, ?_⟩
      simp only [finishRun, (session_refused sha1 l ctx.infoHash c).1, htr]
      exact .sizeless ho hag hm
    | some n =>
      by_cases hn : n.toNat ≤ 20 * 1024 * 1024
      · obtain ⟨used, left, es, h1, h2, h3, -, h5⟩ :=
          session_spec sha1 l ctx.infoHash n c (contains_of_getMessageId hget) hn
        obtain ⟨ps, fs, t, stop, hb, hf, ht⟩ := frames_split l.ending rest
        have haf := allFrames_spec l.ending ps fs t stop hf ht
        rw [hb, haf] at hfr
        have hcf : c.frames = ps := congrArg Prod.fst hfr
        have hcs : c.stop = stop := congrArg Prod.snd hfr
        refine ⟨(getMetadataInfo sha1 l ctx.infoHash (some n) c).1.trace, rfl, ?_⟩
        simp only [finishRun]
        rw [h3, htr]
        refine .talked (used := used) (left := left) (fs := fs) (t := t) (stop := stop) ho (hb ▸ hag) ?_ ht hm hn ?_ ?_
        · rw [← h1, hcf]; exact hf
        · rw [hlr] at h2; exact h2
        · rw [hlr, hns, hcs] at h5; exact h5
      · refine ⟨(getMetadataInfo sha1 l ctx.infoHash (some n) c).1.trace, rfl, ?_⟩
        simp only [finishRun, (session_refused sha1 l ctx.infoHash c).2 n (by omega), htr]
        exact .huge ho hag hm (by omega)

theorem ends_not_crypto {sha1 good ih n rest stop garbage next es}
    (h : Ends sha1 good ih n rest stop garbage next es (.err .cryptoHandshake)) : False := by
  cases h with
  | empty _ hv => cases hv
  | complete _ _ _ hv => cases hv

/-- The encryption handshake fails only if it is attempted. -/
theorem visit_crypto {sha1 good l ctx enc message garbage es}
    (h : Visit sha1 good l ctx enc message garbage es (.err .cryptoHandshake)) :
    l.connect = .ok ∧ enc = true ∧ l.crypto = .fail ∧ es = [] := by
  generalize hz : (Res.err .cryptoHandshake : Res PeerError TorrentInfo) = z at h
  cases h with
  | failed _ hc =>
    cases hz
    generalize hz : (Res.err .cryptoHandshake : Res PeerError (Option (BitVec 32))) = z at hc
    cases hc with
    | cryptoFail h1 h2 h3 => exact ⟨h1, h2, h3, rfl⟩
    | short => split at hz <;> cases hz
    | _ => cases hz
  | talked _ _ _ _ _ _ _ he => cases hz; exact absurd he ends_not_crypto
  | _ => cases hz

/-- **C51, C31.** A whole run goes as prescribed by `Run`. -/
theorem run_spec (sha1 : Bytes → Bytes) (links : Nat → Link) (ctx : PeerCtx) (override : Option CryptoMode)
    (pref : CryptoPreference) (required : Bool) :
    Run sha1 IsInfoDict links ctx (wish override pref) required (fun f m => Message.decode f reg42 = .ok m)
      (fun f e => Message.decode f reg42 = .error e) (infoGetterRun sha1 links ctx override pref required).1
      (infoGetterRun sha1 links ctx override pref required).2 := by
  have hmode : getCryptoMode override pref required = match wish override pref, required with
      | .never, true => none
      | .never, false | .ifRequired, false => some .plain
      | .always, _ | .ifRequired, true | .prefer, true => some .encrypt
      | .prefer, false => some .prefer := by
    rcases override with _ | ⟨_ | _ | _⟩ <;> cases pref <;> cases required <;> rfl
  obtain ⟨e1, h1, v1⟩ := visit_spec sha1 ctx [] (links 0) true
  obtain ⟨e2, h2, v2⟩ := visit_spec sha1 ctx [] (links 0) false
  unfold infoGetterRun
  rw [hmode]
  generalize wish override pref = w
  cases w with
  | always => simp only; rw [h1]; exact .encrypted (.inl rfl) v1 (by intro h; cases h)
  | never =>
    cases required with
    | true => exact .impossible rfl rfl
    | false => simp only; rw [h2]; exact .plain (.inl rfl) rfl v2
  | ifRequired =>
    cases required with
    | true => simp only; rw [h1]; exact .encrypted (.inr (.inr ⟨rfl, rfl⟩)) v1 (by intro h; cases h)
    | false => simp only; rw [h2]; exact .plain (.inr rfl) rfl v2
  | prefer =>
    cases required with
    | true => simp only; rw [h1]; exact .encrypted (.inr (.inl rfl)) v1 (by intro _ h; cases h)
    | false =>
      simp only
      split
      · rename_i c hc
        obtain ⟨e3, h3, v3⟩ := visit_spec sha1 ctx [⟨true, c.trace⟩] (links 1) false
        rw [h3]
        rw [hc] at v1 h1
        have : e1 = c.trace := by
          simp only [finishRun, List.nil_append, List.cons.injEq, Attempt.mk.injEq, true_and, and_true] at h1
          exact h1.symm
        rw [this] at v1
        exact .fallback rfl rfl v1 v3
      · rename_i hne
        rw [h1]
        refine .encrypted (.inr (.inl rfl)) v1 ?_
        intro _ _ hr
        rw [hr] at v1
        obtain ⟨hv1, -, hv2, -⟩ := visit_crypto v1
        refine hne ⟨[], .pending, 0, [], [], .new, .new⟩ ?_
        simp [connect, hv1, hv2]

section
variable {sha1 : Bytes → Bytes} {good : Bytes → Prop} {links : Nat → Link} {ctx : PeerCtx} {w : CryptoPreference}
  {required : Bool} {message : Bytes → Message → Prop} {garbage : Bytes → MessageError → Prop} {as : List Attempt}
  {r : Res PeerError TorrentInfo}

/-- Every attempt of a run is a visit. -/
theorem run_visits (h : Run sha1 good links ctx w required message garbage as r) (a : Attempt) (ha : a ∈ as) :
    ∃ i r', Visit sha1 good (links i) ctx a.encrypt message garbage a.trace r' := by
  cases h with
  | impossible => cases ha
  | encrypted _ hv => rw [List.mem_singleton] at ha; subst ha; exact ⟨_, _, hv⟩
  | plain _ _ hv => rw [List.mem_singleton] at ha; subst ha; exact ⟨_, _, hv⟩
  | fallback _ _ hv hv' =>
    rcases List.mem_cons.1 ha with rfl | ha
    · exact ⟨_, _, hv⟩
    · rw [List.mem_singleton] at ha; subst ha; exact ⟨_, _, hv'⟩

/-- **C31.** With preference `always` no plaintext connection is attempted. -/
theorem always_encrypts (h : Run sha1 good links ctx .always required message garbage as r) :
    ∀ a ∈ as, a.encrypt = true := by
  generalize hw : CryptoPreference.always = w at h
  cases h with
  | impossible => intro a ha; cases ha
  | encrypted => intro a ha; rw [List.mem_singleton] at ha; subst ha; rfl
  | plain h => subst hw; rcases h with h | h <;> cases h
  | fallback h => subst hw; cases h

/-- **C31.** With preference `never` no encrypted connection is attempted. -/
theorem never_encrypts (h : Run sha1 good links ctx .never required message garbage as r) :
    ∀ a ∈ as, a.encrypt = false := by
  generalize hw : CryptoPreference.never = w at h
  cases h with
  | impossible => intro a ha; cases ha
  | plain => intro a ha; rw [List.mem_singleton] at ha; subst ha; rfl
  | encrypted h => subst hw; rcases h with h | h | h <;> first | cases h; done | cases h.1
  | fallback h => subst hw; cases h

/-- **C31.** A peer that requires encryption is never contacted without it, and not at all only if encryption is
forbidden. -/
theorem required_encrypts (h : Run sha1 good links ctx w required message garbage as r) (hr : required = true) :
    (∀ a ∈ as, a.encrypt = true) ∧ (as = [] ↔ w = .never) := by
  cases h with
  | impossible h => exact ⟨(by intro a ha; cases ha), by simp [h]⟩
  | plain _ h => rw [hr] at h; cases h
  | encrypted h =>
    refine ⟨fun a ha => by rw [List.mem_singleton] at ha; subst ha; rfl, ?_⟩
    rcases h with rfl | rfl | ⟨rfl, _⟩ <;> simp
  | fallback _ h => rw [hr] at h; cases h

/-- **C31.** If encryption is preferred, a plaintext connection is only attempted after an encrypted one whose
encryption handshake failed, to a peer that does not require encryption. -/
theorem fallback_only (h : Run sha1 good links ctx .prefer required message garbage as r) (a : Attempt) (ha : a ∈ as)
    (he : a.encrypt = false) :
    required = false ∧ (links 0).connect = .ok ∧ (links 0).crypto = .fail ∧ as = [⟨true, []⟩, a] := by
  generalize hw : CryptoPreference.prefer = w at h
  cases h with
  | impossible => cases ha
  | encrypted => rw [List.mem_singleton] at ha; subst ha; cases he
  | plain h => subst hw; rcases h with h | h <;> cases h
  | fallback _ h hv =>
    obtain ⟨h1, _, h2, rfl⟩ := visit_crypto hv
    rcases List.mem_cons.1 ha with rfl | ha
    · cases he
    · rw [List.mem_singleton] at ha; subst ha; exact ⟨h, h1, h2, rfl⟩

/-- **C31.** There are at most two attempts, and two only if encryption is preferred. -/
theorem attempts_bounded (h : Run sha1 good links ctx w required message garbage as r) :
    as.length ≤ 2 ∧ (as.length = 2 → w = .prefer) := by
  cases h with
  | fallback h => exact ⟨by simp, fun _ => h⟩
  | _ => exact ⟨by simp, by simp⟩

theorem greetings_sent {ours h : Handshake} {s : ExtendedHandshake} {m : Message}
    (hm : Event.sent m ∈ allGreetings ctx ours h s) : ¬ IsMetadata m := by
  intro hi
  simp only [allGreetings, greetings, List.mem_append, List.mem_cons, List.not_mem_nil, or_false] at hm
  rcases hm with (hm | hm | hm | hm) | hm
  · cases hm
  · cases hm
  · cases hm; cases hi
  · cases hm
  · split at hm
    · rw [List.mem_singleton] at hm; cases hm; cases hi
    · cases hm

theorem connects_sent {l enc ours es r'} (h : Connects l ctx enc ours message garbage es r') {m : Message}
    (hm : Event.sent m ∈ es) : ¬ IsMetadata m := by
  intro hi
  have key : ∀ {m' : Message}, Event.sent m = Event.sent m' → (m' = .extended (.handshake (ourGreeting ctx.peerIp)) ∨
      m' = .core .haveNone) → False := by
    intro m' h1 h2
    cases h1
    rcases h2 with rfl | rfl <;> cases hi
  cases h <;>
    simp only [greetings, List.mem_append, List.mem_cons, List.not_mem_nil, or_false, reduceCtorEq, false_or] at hm <;>
    first
      | exact key hm (.inl rfl)
      | (rcases hm with hm | hm
         · exact key hm (.inl rfl)
         · exact key hm (.inr rfl))

/-- **C51.** The peer is asked for metadata (or told that there is none to be had from us) only after it has agreed: our
handshake and an answer to it with the right info hash and support for BEP 10, our greeting, and the greeting of the
peer, registering `ut_metadata`; and only if the size of the metadata is acceptable. -/
theorem visit_sent {l : Link} {enc : Bool} {es : List Event} (h : Visit sha1 good l ctx enc message garbage es r)
    (pre : List Event) (m : Message) (post : List Event) (he : es = pre ++ .sent m :: post) (hm : IsMetadata m) :
    ∃ ours h s code rest n mid, OurHandshake ctx ours ∧ Agreed l ctx enc h s code rest ∧ s.metadataSize = some n ∧
      n.toNat ≤ 20 * 1024 * 1024 ∧ pre = allGreetings ctx ours h s ++ mid := by
  have hmem : Event.sent m ∈ es := by rw [he]; simp
  cases h with
  | failed _ hc => exact absurd hm (connects_sent hc hmem)
  | late _ hc => exact absurd hm (connects_sent hc hmem)
  | panicked _ hc => exact absurd hm (connects_sent hc hmem)
  | sizeless => exact absurd hm (greetings_sent hmem)
  | huge => exact absurd hm (greetings_sent hmem)
  | @talked ours h s code n used left fs t stop es r ho hag _ _ hs hn =>
    rcases List.append_eq_append_iff.1 he with ⟨a', h1, h2⟩ | ⟨c', h1, h2⟩
    · exact ⟨ours, h, s, code, _, n, a', ho, hag, hs, hn, h1⟩
    · cases c' with
      | nil => exact ⟨ours, h, s, code, _, n, [], ho, hag, hs, hn, by rw [h1]; simp⟩
      | cons x xs =>
        cases h2
        exact absurd hm (greetings_sent (m := m) (by rw [h1]; simp))

/-- **C51.** In the conversation of an attempt, `HaveNone` is sent only if both sides support the Fast extension. -/
theorem haveNone_only {l : Link} {enc : Bool} {es : List Event} (h : Visit sha1 good l ctx enc message garbage es r)
    (hm : Event.sent (.core .haveNone) ∈ es) :
    ∃ h s code rest, Agreed l ctx enc h s code rest ∧ h.extensions.has .fast = true := by
  have hg : ∀ {ours h s code rest}, Agreed l ctx enc h s code rest → Event.sent (.core .haveNone) ∈ allGreetings ctx ours h s →
      ∃ h s code rest, Agreed l ctx enc h s code rest ∧ h.extensions.has .fast = true := by
    intro ours h s code rest hag hm
    cases hf : h.extensions.has .fast with
    | true => exact ⟨_, _, _, _, hag, hf⟩
    | false => simp [allGreetings, greetings, hf] at hm
  have hc : ∀ {ours es r'}, Connects l ctx enc ours message garbage es r' → Event.sent (.core .haveNone) ∈ es →
      ∃ h s code rest, Agreed l ctx enc h s code rest ∧ h.extensions.has .fast = true := by
    intro ours es r' h hm
    cases h with
    | fast ha hf _ => exact ⟨_, _, _, _, ha, hf⟩
    | _ => simp [greetings] at hm
  cases h with
  | failed _ h => exact hc h hm
  | late _ h => exact hc h hm
  | panicked _ h => exact hc h hm
  | sizeless _ h => exact hg h hm
  | huge _ h => exact hg h hm
  | @talked ours h s code n used left fs t stop es r ho hag _ _ hs hn _ he =>
    rcases List.mem_append.1 hm with hm | hm
    · exact hg hag hm
    · obtain ⟨a, b, hab⟩ := List.append_of_mem hm
      rcases requests_in_order he a _ b hab with ⟨_, h1, _⟩ | ⟨_, _, h1, _⟩ <;> cases h1

theorem talk_events {n ps st es} (h : Talk n ps st es) (e : Event) (he : e ∈ es) :
    (∃ m, e = .sent m) ∨ ∃ m, e = .received m := by
  induction h with
  | start => cases he
  | sent _ ih =>
    rcases List.mem_append.1 he with he | he
    · exact ih he
    · rw [List.mem_singleton] at he; exact .inl ⟨_, he⟩
  | ignore _ _ ih | refuse _ ih | accept _ _ _ ih =>
    rcases List.mem_append.1 he with he | he
    · exact ih he
    · rw [List.mem_singleton] at he; exact .inr ⟨_, he⟩

theorem ends_events {ih n rest stop next es} (h : Ends sha1 good ih n rest stop garbage next es r) (e : Event) (he : e ∈ es) :
    (∃ m, e = .sent m) ∨ ∃ m, e = .received m := by
  rcases ends_talk h with ⟨rfl, _⟩ | ⟨ps, s, ht, _⟩ | ⟨ps, es', m', rfl, ht, _⟩
  · cases he
  · exact talk_events ht e he
  · rcases List.mem_append.1 he with he | he
    · exact talk_events ht e he
    · rw [List.mem_singleton] at he; exact .inr ⟨_, he⟩

/-- **C51.** ... and if so, it is sent before anything is asked for. -/
theorem haveNone_always {l : Link} {enc : Bool} {es : List Event} (h : Visit sha1 good l ctx enc message garbage es r)
    (pre : List Event) (m : Message) (post : List Event) (he : es = pre ++ .sent m :: post) (hm : IsMetadata m)
    (theirs : Handshake) (ht : Event.gotHandshake theirs ∈ es) (hf : theirs.extensions.has .fast = true) :
    Event.sent (.core .haveNone) ∈ pre := by
  have hmem : Event.sent m ∈ es := by rw [he]; simp
  cases h with
  | failed _ hc => exact absurd hm (connects_sent hc hmem)
  | late _ hc => exact absurd hm (connects_sent hc hmem)
  | panicked _ hc => exact absurd hm (connects_sent hc hmem)
  | sizeless => exact absurd hm (greetings_sent hmem)
  | huge => exact absurd hm (greetings_sent hmem)
  | @talked ours h s code n used left fs t stop es r ho hag _ _ hs hn _ hends =>
    have hth : theirs = h := by
      rcases List.mem_append.1 ht with ht | ht
      · simp only [allGreetings, greetings, List.mem_append, List.mem_cons, List.not_mem_nil, or_false, reduceCtorEq,
          false_or, Event.gotHandshake.injEq] at ht
        rcases ht with ht | ht
        · exact ht
        · split at ht <;> simp at ht
      · rcases ends_events hends _ ht with ⟨_, h⟩ | ⟨_, h⟩ <;> cases h
    subst hth
    have hin : Event.sent (.core .haveNone) ∈ allGreetings ctx ours theirs s := by simp [allGreetings, hf]
    rcases List.append_eq_append_iff.1 he with ⟨a', h1, h2⟩ | ⟨c', h1, h2⟩
    · rw [h1]; exact List.mem_append_left _ hin
    · cases c' with
      | nil => rw [List.append_nil] at h1; rw [← h1]; exact hin
      | cons x xs =>
        cases h2
        exact absurd hm (greetings_sent (m := m) (by rw [h1]; simp))

/-- **C14, C51.** A successful run ends with a visit that went through all the greetings, and its result has the
requested hash and the announced size and is a dictionary. -/
theorem run_success {info : TorrentInfo} (h : Run sha1 good links ctx w required message garbage as (.ok info)) :
    info.infoHash = ctx.infoHash ∧ sha1 info.data = ctx.infoHash.bytes ∧ good info.data ∧
    ∃ a i h s code rest n, as.getLast? = some a ∧ Agreed (links i) ctx a.encrypt h s code rest ∧
      s.metadataSize = some n ∧ n.toNat = info.data.length := by
  have hv : ∀ {l enc es}, Visit sha1 good l ctx enc message garbage es (.ok info) →
      info.infoHash = ctx.infoHash ∧ sha1 info.data = ctx.infoHash.bytes ∧ good info.data ∧
      ∃ h s code rest n, Agreed l ctx enc h s code rest ∧ s.metadataSize = some n ∧ n.toNat = info.data.length := by
    intro l enc es h
    generalize hz : (Res.ok info : Res PeerError TorrentInfo) = z at h
    cases h with
    | talked _ hag _ _ hs _ _ he =>
      subst hz
      obtain ⟨h1, h2, h3, ps, -, h4, h5, h6, -⟩ := session_success info he
      refine ⟨h1, h2, h3, _, _, _, _, _, hag, hs, ?_⟩
      rw [← h4, goodPieces_length _ ps h5, h6, sum_prefix _ _ (Nat.le_refl _)]
      unfold pieceCount; omega
    | _ => cases hz
  generalize hz : (Res.ok info : Res PeerError TorrentInfo) = z at h
  cases h with
  | impossible => cases hz
  | encrypted _ h =>
    subst hz
    obtain ⟨h1, h2, h3, h, s, code, rest, n, h4⟩ := hv h
    exact ⟨h1, h2, h3, _, 0, h, s, code, rest, n, rfl, h4⟩
  | plain _ _ h =>
    subst hz
    obtain ⟨h1, h2, h3, h, s, code, rest, n, h4⟩ := hv h
    exact ⟨h1, h2, h3, _, 0, h, s, code, rest, n, rfl, h4⟩
  | fallback _ _ _ h =>
    subst hz
    obtain ⟨h1, h2, h3, h, s, code, rest, n, h4⟩ := hv h
    exact ⟨h1, h2, h3, _, 1, h, s, code, rest, n, rfl, h4⟩

/-- **C51.** Nothing a peer does causes a panic; the only one is that of an encrypted attempt for which the time allowed for the key
exchange is too long. -/
theorem run_panic (h : Run sha1 good links ctx w required message garbage as .panic) :
    as = [⟨true, []⟩] ∧ (links 0).connect = .ok ∧ (links 0).crypto = .overflow := by
  have hv : ∀ {l enc es}, Visit sha1 good l ctx enc message garbage es .panic →
      l.connect = .ok ∧ enc = true ∧ l.crypto = .overflow ∧ es = [] := by
    intro l enc es h
    generalize hz : (Res.panic : Res PeerError TorrentInfo) = z at h
    cases h with
    | talked _ _ _ _ _ _ _ he => subst hz; exact absurd he session_no_panic
    | panicked _ hc => exact connects_panic hc
    | _ => cases hz
  generalize hz : (Res.panic : Res PeerError TorrentInfo) = z at h
  cases h with
  | impossible => cases hz
  | encrypted _ h =>
    subst hz
    obtain ⟨h1, _, h2, rfl⟩ := hv h
    exact ⟨rfl, h1, h2⟩
  | plain _ _ h => subst hz; obtain ⟨-, h, -⟩ := hv h; cases h
  | fallback _ _ _ h => subst hz; obtain ⟨-, h, -⟩ := hv h; cases h

/-- **C51.** Without such an attempt there is no panic. -/
theorem run_no_panic (ho : (links 0).crypto ≠ .overflow) : ¬ Run sha1 good links ctx w required message garbage as .panic :=
  fun h => ho (run_panic h).2.2

end

/-! ### The same, said of the program -/

/-- **C31.** The policy, for every setting, every flag of the peer and every behaviour of the network: what the user
wants is obeyed. -/
theorem crypto_policy (sha1 : Bytes → Bytes) (links : Nat → Link) (ctx : PeerCtx) (override : Option CryptoMode)
    (pref : CryptoPreference) (required : Bool) :
    let as := (infoGetterRun sha1 links ctx override pref required).1
    (wish override pref = .always → ∀ a ∈ as, a.encrypt = true) ∧
    (wish override pref = .never → ∀ a ∈ as, a.encrypt = false) ∧
    (required = true → (∀ a ∈ as, a.encrypt = true) ∧ (as = [] ↔ wish override pref = .never)) ∧
    (wish override pref = .prefer → ∀ a ∈ as, a.encrypt = false →
      required = false ∧ (links 0).connect = .ok ∧ (links 0).crypto = .fail ∧ as = [⟨true, []⟩, a]) ∧
    (wish override pref = .ifRequired → ∃ es, as = [⟨required, es⟩]) ∧
    as.length ≤ 2 ∧ (as.length = 2 → wish override pref = .prefer) := by
  intro as
  have h := run_spec sha1 links ctx override pref required
  refine ⟨fun hw => always_encrypts (hw ▸ h), fun hw => never_encrypts (hw ▸ h), required_encrypts h,
    fun hw a ha he => fallback_only (hw ▸ h) a ha he, fun hw => ?_, attempts_bounded h⟩
  rw [hw] at h
  show ∃ es, (infoGetterRun sha1 links ctx override pref required).1 = _
  generalize (infoGetterRun sha1 links ctx override pref required).1 = x at h
  generalize (infoGetterRun sha1 links ctx override pref required).2 = y at h
  generalize hz : CryptoPreference.ifRequired = w at h
  cases h with
  | impossible h => subst hz; cases h
  | encrypted h =>
    subst hz
    rcases h with h | h | ⟨_, rfl⟩
    · cases h
    · cases h
    · exact ⟨_, rfl⟩
  | plain _ h => subst h; exact ⟨_, rfl⟩
  | fallback h => subst hz; cases h

/-- **C51.** Whatever the peer does, nothing about metadata is sent to it unless, in this order, our handshake was
sent, a handshake for the same torrent with BEP 10 came back, our greeting was sent, and the first message of the peer
was a greeting registering `ut_metadata`; moreover `HaveNone` is sent in between exactly if the handshake of the peer
has the Fast extension. -/
theorem requests_after_greetings (sha1 : Bytes → Bytes) (links : Nat → Link) (ctx : PeerCtx)
    (override : Option CryptoMode) (pref : CryptoPreference) (required : Bool) (a : Attempt)
    (ha : a ∈ (infoGetterRun sha1 links ctx override pref required).1) (pre : List Event) (m : Message) (post : List Event)
    (he : a.trace = pre ++ .sent m :: post) (hm : IsMetadata m) :
    ∃ i ours h s code rest mid, OurHandshake ctx ours ∧ Agreed (links i) ctx a.encrypt h s code rest ∧
      pre = [.sentHandshake ours, .gotHandshake h, .sent (.extended (.handshake (ourGreeting ctx.peerIp))),
        .received (.extended (.handshake s))] ++
        (if h.extensions.has .fast then [.sent (.core .haveNone)] else []) ++ mid := by
  obtain ⟨i, r', hv⟩ := run_visits (run_spec sha1 links ctx override pref required) a ha
  obtain ⟨ours, h, s, code, rest, n, mid, h1, h2, -, -, h3⟩ := visit_sent hv pre m post he hm
  exact ⟨i, ours, h, s, code, rest, mid, h1, h2, h3⟩

/-! ### Completeness -/

theorem layout_unique {h h' : Handshake} {hs : Bytes} (h1 : HandshakeLayout h hs) (h2 : HandshakeLayout h' hs) : h = h' := by
  have a := (handshake_decode_spec hs h).2 h1
  have b := (handshake_decode_spec hs h').2 h2
  rw [a] at b; cases b; rfl

theorem shaken_unique {l : Link} {enc : Bool} {h h' : Handshake} {rest rest' : Bytes} (h1 : Shaken l enc h rest)
    (h2 : Shaken l enc h' rest') : h = h' ∧ rest = rest' := by
  obtain ⟨-, -, hs, e1, l1⟩ := h1
  obtain ⟨-, -, hs', e2, l2⟩ := h2
  rw [e1] at e2
  obtain ⟨rfl, rfl⟩ := List.append_inj e2 (by rw [layout_length l1, layout_length l2])
  exact ⟨layout_unique l1 l2, rfl⟩

theorem firstFrame_eq {bs f rest : Bytes} (h : FirstFrame bs f rest) :
    f.length ≤ 65535 ∧ bs = beBytes 4 f.length ++ f ++ rest := by
  obtain ⟨fr, hf, rfl⟩ := h
  cases hf with
  | cons hh hl hn =>
    cases hn
    rw [isHeader_eq hh]
    exact ⟨hl, by simp⟩

theorem firstFrame_unique {bs f f' rest rest' : Bytes} (h1 : FirstFrame bs f rest) (h2 : FirstFrame bs f' rest') :
    f = f' ∧ rest = rest' := by
  obtain ⟨l1, e1⟩ := firstFrame_eq h1
  obtain ⟨l2, e2⟩ := firstFrame_eq h2
  rw [e1, List.append_assoc, List.append_assoc] at e2
  have hl := beBytes4_inj l1 (by omega) e2
  exact List.append_inj hl.2 hl.1

theorem firstFrame_noFrame {bs f rest : Bytes} {ending stop} (h1 : FirstFrame bs f rest) (h2 : NoFrame ending bs stop) : False := by
  obtain ⟨l1, e1⟩ := firstFrame_eq h1
  subst e1
  rcases h2 with ⟨h, -⟩ | ⟨left, h, -⟩
  · exact frame_not_tooLong l1 h
  · exact frame_not_incomplete l1 h

theorem greeting_unique {f : Bytes} {s s' : ExtendedHandshake} (h1 : IsGreeting f s) (h2 : IsGreeting f s') : s = s' := by
  have a := (decode_handshake_iff f reg42 s).2 h1
  have b := (decode_handshake_iff f reg42 s').2 h2
  rw [a] at b; cases b; rfl

theorem metadataCode_unique {f : Bytes} {s : ExtendedHandshake} (h : IsGreeting f s) {c c' : BitVec 8}
    (h1 : MetadataCode s c) (h2 : MetadataCode s c') : c = c' := by
  obtain ⟨m, hm, h1⟩ := h1
  obtain ⟨m', hm', h2⟩ := h2
  rw [hm] at hm'; cases hm'
  have hs := greeting_sorted h m hm
  have a := (hmap_get_mem hs _ _).2 h1
  have b := (hmap_get_mem hs _ _).2 h2
  rw [a] at b; cases b; rfl

/-- **C51.** Connecting to a peer that agrees succeeds. -/
theorem connect_complete (l : Link) (ctx : PeerCtx) (enc : Bool) (h : Handshake) (s : ExtendedHandshake) (code : BitVec 8)
    (rest : Bytes) (ha : Agreed l ctx enc h s code rest) (h2 : h.extensions.has .fast = true → l.sends 2 = .ok) :
    (connect l ctx enc).2 = .ok s.metadataSize := by
  obtain ⟨ours, ho, hc, -⟩ := connect_spec l ctx enc
  obtain ⟨rest0, f, ⟨hsh, hih, hb, h1⟩, hff, hg, hmc, h0⟩ := ha
  obtain ⟨⟨hcon, hcry⟩, hs0, hs, hin, hlay⟩ := id hsh
  have hlen := layout_length hlay
  generalize hr : (connect l ctx enc).2 = r at hc
  generalize (connect l ctx enc).1.trace = tr at hc
  have agreed : ∀ {h' s' code' rest'}, Agreed l ctx enc h' s' code' rest' → h' = h ∧ s' = s := by
    rintro h' s' code' rest' ⟨r0, f', ⟨hsh', -⟩, hff', hg', -⟩
    obtain ⟨rfl, rfl⟩ := shaken_unique hsh hsh'
    obtain ⟨rfl, rfl⟩ := firstFrame_unique hff hff'
    exact ⟨rfl, greeting_unique hg' hg⟩
  cases hc with
  | refused h => rw [hcon] at h; cases h
  | unreachable h => rw [hcon] at h; cases h
  | cryptoFail _ he h => rw [hcry he] at h; cases h
  | cryptoHang _ he h => rw [hcry he] at h; cases h
  | cryptoPanic _ he h => rw [hcry he] at h; cases h
  | unsent0 _ h => rw [hs0] at h; cases h
  | stuck0 _ h => rw [hs0] at h; cases h
  | short _ _ h => rw [hin, List.length_append, hlen] at h; omega
  | foreign _ _ _ h =>
    refine absurd hlay ?_
    rw [hin, List.take_append_of_le_length (by omega), List.take_of_length_le (by omega)] at h
    exact h _
  | mismatch h hne => obtain ⟨rfl, rfl⟩ := shaken_unique hsh h; exact absurd hih hne
  | noBep10 h _ hne => obtain ⟨rfl, rfl⟩ := shaken_unique hsh h; rw [hb] at hne; cases hne
  | unsent1 _ _ _ h => rw [h1] at h; cases h
  | stuck1 _ _ _ h => rw [h1] at h; cases h
  | silent h hn => obtain ⟨rfl, rfl⟩ := shaken_unique hsh h.1; exact absurd hn (firstFrame_noFrame hff)
  | closed h hn => obtain ⟨rfl, rfl⟩ := shaken_unique hsh h.1; exact absurd hn (firstFrame_noFrame hff)
  | broken h hn => obtain ⟨rfl, rfl⟩ := shaken_unique hsh h.1; exact absurd hn (firstFrame_noFrame hff)
  | garbled h hf' hbad =>
    obtain ⟨rfl, rfl⟩ := shaken_unique hsh h.1
    obtain ⟨rfl, rfl⟩ := firstFrame_unique hff hf'
    rw [(decode_handshake_iff f reg42 s).2 hg] at hbad; cases hbad
  | rude h hf' _ hbad =>
    obtain ⟨rfl, rfl⟩ := shaken_unique hsh h.1
    obtain ⟨rfl, rfl⟩ := firstFrame_unique hff hf'
    exact absurd hg (hbad s)
  | zeroCode h hf' hg' hz =>
    obtain ⟨rfl, rfl⟩ := shaken_unique hsh h.1
    obtain ⟨rfl, rfl⟩ := firstFrame_unique hff hf'
    cases greeting_unique hg hg'
    exact absurd (metadataCode_unique hg hmc hz) h0
  | noMetadata h hf' hg' hz =>
    obtain ⟨rfl, rfl⟩ := shaken_unique hsh h.1
    obtain ⟨rfl, rfl⟩ := firstFrame_unique hff hf'
    cases greeting_unique hg hg'
    exact absurd hmc (hz code)
  | unsent2 ha hf h => obtain ⟨rfl, rfl⟩ := agreed ha; rw [h2 hf] at h; cases h
  | stuck2 ha hf h => obtain ⟨rfl, rfl⟩ := agreed ha; rw [h2 hf] at h; cases h
  | slow ha => obtain ⟨rfl, rfl⟩ := agreed ha; rfl
  | fast ha => obtain ⟨rfl, rfl⟩ := agreed ha; rfl

/-- **C14, C51.** A peer that agrees, announces the size of the metadata and serves its pieces is a peer from which the
metadata is got. -/
theorem visit_complete (sha1 : Bytes → Bytes) (before : List Attempt) (l : Link) (ctx : PeerCtx) (enc : Bool)
    (h : Handshake) (s : ExtendedHandshake) (code : BitVec 8) (frames : List Bytes) (fs t : Bytes) (stop : Stop) (n : BitVec 32)
    (ha : Agreed l ctx enc h s code (fs ++ t)) (hsends : ∀ k, l.sends k = .ok) (hsize : s.metadataSize = some n)
    (hn : n.toNat ≤ 20 * 1024 * 1024) (hf : IsFrames frames fs) (ht : NoFrame l.ending t stop) (ms : List Message)
    (hms : List.Forall₂ (fun f m => Message.decode f reg42 = .ok m) frames ms) (ps : List Bytes)
    (hs : Serves n.toNat 0 ps ms) (hd : sha1 ps.flatten = ctx.infoHash.bytes) (hi : IsInfoDict ps.flatten) :
    (finishRun sha1 ctx before l enc (connect l ctx enc)).2 = .ok ⟨ctx.infoHash, ps.flatten⟩ := by
  have hok := connect_complete l ctx enc h s code _ ha (fun _ => hsends 2)
  obtain ⟨ours, ho, hc, hcon⟩ := connect_spec l ctx enc
  obtain ⟨⟨h', s', code', rest', hag', -, hget, hfr, -⟩, hlr⟩ := hcon _ hok
  have hrest : rest' = fs ++ t := by
    obtain ⟨r0, f, ⟨hsh, -⟩, hff, -⟩ := ha
    obtain ⟨r0', f', ⟨hsh', -⟩, hff', -⟩ := hag'
    obtain ⟨rfl, rfl⟩ := shaken_unique hsh hsh'
    exact (firstFrame_unique hff' hff).2
  rw [hrest, allFrames_spec l.ending frames fs t stop hf ht] at hfr
  generalize hcc : connect l ctx enc = cr at *
  obtain ⟨c, r⟩ := cr
  simp only at hok hget hfr hlr
  subst hok
  have hcf : c.frames = frames := congrArg Prod.fst hfr
  simp only [finishRun, hsize]
  exact session_complete sha1 l ctx.infoHash n c (contains_of_getMessageId hget) hn hsends ms
    (by rw [hcf, hlr]; exact hms) ps hs hd hi

/-! ### The hypotheses can be met: a peer that serves the metadata `de` -/

/-- The torrent, the handshake and the greeting of the peer, and all that it sends. -/
def exHash : InfoHash := ⟨List.replicate 20 7, by decide⟩
def exCtx : PeerCtx := ⟨exHash, ⟨List.replicate 20 9, by decide⟩, .v4 ⟨0x01020304#32⟩⟩
def exTheirs : Handshake := Handshake.new supportedExtensions exHash ⟨List.replicate 20 8, by decide⟩
def exGreeting : ExtendedHandshake :=
  { e := none, m := some [("ut_metadata".toList, 3)], v := none, metadataSize := some 2, yourip := none }
def exGreetingBytes : Bytes := [20, 0] ++ ascii "d1:md11:ut_metadatai3ee13:metadata_sizei2ee"
def exDataBytes : Bytes := [20, 42] ++ ascii "d8:msg_typei1e5:piecei0e10:total_sizei2eede"
def exRest : Bytes := beBytes 4 exDataBytes.length ++ exDataBytes
def exLink : Link :=
  { connect := .ok, crypto := .fail, ending := .stall, sends := fun _ => .ok,
    incoming := exTheirs.encode ++ (beBytes 4 exGreetingBytes.length ++ exGreetingBytes ++ exRest) }

theorem exGreeting_ok : IsGreeting exGreetingBytes exGreeting :=
  (decode_handshake_iff exGreetingBytes reg42 exGreeting).1 (by decide +kernel)

theorem exAgreed : Agreed exLink exCtx false exTheirs exGreeting 3 (exRest ++ []) := by
  refine ⟨_, exGreetingBytes, ⟨⟨⟨rfl, by intro h; cases h⟩, rfl, exTheirs.encode, rfl, (handshake_encode_spec _).2⟩, rfl,
    by decide, rfl⟩, ⟨_, .cons (isHeader_beBytes _ (by decide)) (by decide) .nil, ?_⟩, exGreeting_ok, ⟨_, rfl, by decide⟩,
    by decide⟩
  simp

theorem exServed (before : List Attempt) :
    (finishRun (fun _ => List.replicate 20 7) exCtx before exLink false (connect exLink exCtx false)).2 =
      .ok ⟨exHash, ascii "de"⟩ :=
  visit_complete (fun _ => List.replicate 20 7) before exLink exCtx false exTheirs exGreeting 3 [exDataBytes]
    exRest [] .pending 2 exAgreed (fun _ => rfl) rfl (by decide)
    (by simpa [exRest] using IsFrames.cons (isHeader_beBytes _ (by decide)) (by decide) IsFrames.nil) (.inr ⟨0, .inl ⟨by decide, rfl⟩, rfl⟩)
    [data 0 2 (ascii "de")] (.cons (by decide +kernel) .nil) [ascii "de"]
    (.piece (by decide) (by decide) .done) rfl ⟨[], by decide +kernel, by simp [Canonical, SortedKeys, CanonicalDict], by decide +kernel⟩

/-- Preferring encryption, which fails here, the metadata is got in the second, plaintext attempt. -/
example : (infoGetterRun (fun _ => List.replicate 20 7) (fun _ => exLink) exCtx none .prefer false).2 =
    .ok ⟨exHash, ascii "de"⟩ := by
  have : connect exLink exCtx true = (⟨[], .pending, 0, [], [], .new, .new⟩, .err .cryptoHandshake) := rfl
  unfold infoGetterRun
  simp only [getCryptoMode, CryptoPreference.getCryptoMode, this]
  exact exServed _

/-- Requiring it, the peer is contacted once, in vain. -/
example : (infoGetterRun (fun _ => List.replicate 20 7) (fun _ => exLink) exCtx none .always false).1 = [⟨true, []⟩] := rfl

end Demag.Props
