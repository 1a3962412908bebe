import Verif.Spec.ProgramPeer
import Verif.Props.Program
import Verif.Props.SecureLink

/-!
# C88: what the user says about encryption, from the command line to the connection
-/

namespace Demag

open Spec

theorem wish_userWish (enc pre no : Bool) (p : CryptoPreference) : wish (queryPeerMode enc pre no) p = userWish enc pre no p := by
  cases enc <;> cases pre <;> cases no <;> rfl

/-- An attempt that ends with the failure of the encryption handshake has failed in it. -/
theorem visit_cryptoHandshake {sha1 : Bytes → Bytes} {good : Bytes → Prop} {l : Link} {ctx : PeerCtx} {enc : Bool}
    {message : Bytes → Message → Prop} {garbage : Bytes → MessageError → Prop} {es : List Event}
    (h : Visit sha1 good l ctx enc message garbage es (.err .cryptoHandshake)) : l.connect = .ok ∧ l.crypto = .fail := by
  generalize hz : (Res.err .cryptoHandshake : Res PeerError TorrentInfo) = z at h
  cases h with
  | failed _ hc =>
    cases hz
    generalize hy : (Res.err .cryptoHandshake : Res PeerError (Option (BitVec 32))) = y at hc
    cases hc with
    | cryptoFail h1 h2 h3 => exact ⟨h1, h3⟩
    | short => split at hy <;> cases hy
    | _ => cases hy
  | late => cases hz
  | panicked => cases hz
  | sizeless => cases hz
  | huge => cases hz
  | talked _ _ _ _ _ _ _ he =>
    subst hz
    generalize hy : (Res.err .cryptoHandshake : Res PeerError TorrentInfo) = y at he
    cases he with
    | empty _ hv => subst hy; cases hv
    | complete _ _ _ hv => subst hy; cases hv
    | _ => cases hy

theorem visit_ok {sha1 : Bytes → Bytes} {good : Bytes → Prop} {l : Link} {ctx : PeerCtx} {enc : Bool}
    {message : Bytes → Message → Prop} {garbage : Bytes → MessageError → Prop} {es : List Event} {info : TorrentInfo}
    (h : Visit sha1 good l ctx enc message garbage es (.ok info)) : ∃ h s code rest, Agreed l ctx enc h s code rest := by
  generalize hz : (Res.ok info : Res PeerError TorrentInfo) = z at h
  cases h with
  | talked _ ha => exact ⟨_, _, _, _, ha⟩
  | _ => cases hz

/-- Asking a peer is successful only over a connection as wished. -/
theorem run_talked {sha1 : Bytes → Bytes} {good : Bytes → Prop} {links : Nat → Link} {ctx : PeerCtx} {w : CryptoPreference} {required : Bool}
    {message : Bytes → Message → Prop} {garbage : Bytes → MessageError → Prop} {as : List Attempt} {info : TorrentInfo}
    (hr : Run sha1 good links ctx w required message garbage as (.ok info)) {link : Bool → Nat → Link}
    (h0 : links 0 = link (firstEncrypts w required) 0) (h1 : links 1 = link false 1) :
    TalkedAs link (fun l e => ∃ h s code rest, Agreed l ctx e h s code rest) required w := by
  generalize hz : (Res.ok info : Res PeerError TorrentInfo) = z at hr
  cases hr with
  | impossible h => cases hz
  | encrypted hw hv =>
    subst hz
    have := visit_ok hv
    rw [h0] at this
    rcases hw with rfl | rfl | ⟨rfl, rfl⟩
    · exact this
    · exact .inl this
    · exact this
  | plain hw hreq hv =>
    subst hz
    subst hreq
    have := visit_ok hv
    rw [h0] at this
    rcases hw with rfl | rfl
    · exact ⟨rfl, this⟩
    · exact this
  | fallback hw hreq hv hv' =>
    subst hz
    subst hw
    have e1 := visit_cryptoHandshake hv
    have e2 := visit_ok hv'
    rw [h0] at e1
    rw [h1] at e2
    exact .inr ⟨hreq, e1.1, e1.2, e2⟩

namespace Props

section
variable {W : World} {args : List Text} {d : Done} {l : CommandLine} {enc no pre : Bool} {template : List TemplateElement} {peer : Peer}
  {ih : InfoHash} {cfg : Config}

theorem program_peer_run (h : ProgramRun W args d) (hm : CommandLineMeans (cliReaders W.uenv W.lossy) args l)
    (hcmd : l.command = .queryPeer enc no pre template peer ih) (hcfg : AsksConfig (cliReaders W.uenv W.lossy) W args cfg) :
    ∃ effects code, queryPeer W.sha1 W.H (W.queryPeerEnv cfg) enc pre no template peer ih = some (effects, code) ∧
      d = ⟨[], effects, some code⟩ := by
  have hp := (command_line_iff _ _ _ _).2 hm
  have hc := (program_config hp cfg).2 hcfg
  cases h with
  | refused h => rw [hp] at h; cases h
  | unconfigured h h' => rw [hp] at h; cases h; rw [hc] at h'; cases h'
  | ran h h' hr =>
    rw [hp] at h; cases h
    rw [hc] at h'; cases h'
    rw [hcmd] at hr
    cases hr with
    | queryPeer hq => exact ⟨_, _, hq, rfl⟩

theorem program_peer_plain (hm : CommandLineMeans (cliReaders W.uenv W.lossy) args l)
    (hcmd : l.command = .queryPeer enc no pre template peer ih) : ∃ arg, Peer.fromStr arg = some peer := by
  have hp := (command_line_iff _ _ _ _).2 hm
  obtain ⟨_, _, hw⟩ := (command_line_expressible _ _ l).1 ⟨args, hp⟩
  rw [hcmd] at hw
  exact hw.2.1

/-- **C88.** If `query-peer` is successful, then the peer was talked to over a connection as the user wishes: with `--encrypt` (or, without flags, a
configuration that says "always") over an encrypted one; with `--prefer-encrypt` (or "prefer") over an encrypted one, unless the
encryption handshake failed; otherwise over one that is not encrypted. -/
theorem program_peer_encryption (h : ProgramRun W args d) (hs : d.code = some .success)
    (hm : CommandLineMeans (cliReaders W.uenv W.lossy) args l) (hcmd : l.command = .queryPeer enc no pre template peer ih)
    (hcfg : AsksConfig (cliReaders W.uenv W.lossy) W args cfg) :
    TalkedAs (fun e i => (W.raws i).link W.H (W.chances i) ih e)
      (fun link e => ∃ h s code rest, Agreed link ⟨ih, W.localId, peer.address.ip⟩ e h s code rest) false (userWish enc pre no cfg.general.encrypt) := by
  obtain ⟨effects, code, hq, rfl⟩ := program_peer_run h hm hcmd hcfg
  cases Option.some.inj hs
  obtain ⟨arg, harg⟩ := program_peer_plain hm hcmd
  have hreq : peer.requiresCrypto = false := ((peer_fromStr_iff _ _).1 harg).2.1
  obtain ⟨links, hlinks, hask⟩ := ask_run W.sha1 W.H (W.queryPeerEnv cfg) enc pre no peer ih
  have hr := run_spec W.sha1 links ⟨ih, W.localId, peer.address.ip⟩ (queryPeerMode enc pre no) cfg.general.encrypt peer.requiresCrypto
  unfold queryPeer at hq
  rw [hask] at hq
  change ∀ i, links i = (W.raws i).link W.H (W.chances i) ih
    (i == 0 && getCryptoMode (queryPeerMode enc pre no) cfg.general.encrypt peer.requiresCrypto != some .plain) at hlinks
  have hok : ∃ info, (infoGetterRun W.sha1 links ⟨ih, W.localId, peer.address.ip⟩ (queryPeerMode enc pre no) cfg.general.encrypt
      peer.requiresCrypto).2 = .ok info := by
    change (match (infoGetterRun W.sha1 links ⟨ih, W.localId, peer.address.ip⟩ (queryPeerMode enc pre no) cfg.general.encrypt
      peer.requiresCrypto).2 with
      | .ok info => _ | .err _ => _ | .panic => _ | .hang => _) = _ at hq
    split at hq
    · rename_i info hi; exact ⟨info, hi⟩
    · cases hq
    · cases hq
    · cases hq
  obtain ⟨info, hinfo⟩ := hok
  rw [hinfo, wish_userWish] at hr
  rw [hreq] at hr hlinks
  have hl0 : ∀ e, (getCryptoMode (queryPeerMode enc pre no) cfg.general.encrypt false != some .plain) = e →
      links 0 = (W.raws 0).link W.H (W.chances 0) ih e := by
    intro e he
    rw [hlinks 0, he]
    rfl
  have hl1 : links 1 = (W.raws 1).link W.H (W.chances 1) ih false := hlinks 1
  have hmode : (getCryptoMode (queryPeerMode enc pre no) cfg.general.encrypt false != some .plain) =
      firstEncrypts (userWish enc pre no cfg.general.encrypt) false := by
    generalize cfg.general.encrypt = p
    cases enc <;> cases pre <;> cases no <;> cases p <;> rfl
  exact run_talked hr (hl0 _ hmode) hl1

/-- **C88.** Every torrent file that `get` or `batch` writes is for a link asked for, and its metadata comes from a peer that was talked to over a
connection as configured: with "always" an encrypted one; with "prefer" an encrypted one, unless the encryption handshake failed and the peer is
not known to require encryption; with "if-required" an encrypted one exactly if the peer is known to require it; with "never" one that is not
encrypted, and the peer is not known to require encryption. -/
theorem program_get_encryption (hdht : DhtConfig.dflt W.parseHost = some W.dht) (h : ProgramRun W args d) {out : Output} {bytes : Bytes}
    (hw : (out, bytes) ∈ writesOf d.effects) (hm : CommandLineMeans (cliReaders W.uenv W.lossy) args l)
    (hcmd : ∀ enc no pre template peer ih, l.command ≠ .queryPeer enc no pre template peer ih)
    (hcfg : AsksConfig (cliReaders W.uenv W.lossy) W args cfg) :
    ∃ t m, AsksFor (cliReaders W.uenv W.lossy) W args t m ∧ TorrentFor W.sha1 W.lossy ipText t m out bytes ∧
      ∃ p links, W.behaves p links ∧ TalkedAs (fun _ i => links i)
        (fun link e => ∃ h s code rest, Agreed link ⟨m.infoHash, W.localId, p.address.ip⟩ e h s code rest) p.requiresCrypto cfg.general.encrypt := by
  have hp := (command_line_iff _ _ _ _).2 hm
  have hc := (program_config hp cfg).2 hcfg
  have ha := config_accepted hdht hc
  cases h with
  | refused => cases hw
  | unconfigured => cases hw
  | ran h h' hr =>
    rw [hp] at h; cases h
    rw [hc] at h'; cases h'
    have from_get : ∀ {template : List TemplateElement} {m : Magnet}
        {tr : List (ResolveEvent Peer TaskError TorrentInfo × List (ResolveOutput Tracker Peer SockAddr TorrentInfo TaskError))}
        {s : Resolve Tracker Peer SockAddr SockAddr TorrentInfo TaskError} {r : Resolved Tracker SockAddr TorrentInfo TaskError}
        {now : Except Nat Nat} {fileOk : Nat → Bool},
        GetRun W.sha1 { W.getEnv cfg with now := now, fileOk := fileOk } W.behaves W.answers m tr s → s.result = some r →
        (out, bytes) ∈ writesOf (getEffects { W.getEnv cfg with now := now, fileOk := fileOk } template r).1 →
        TorrentFor W.sha1 W.lossy ipText template m out bytes ∧
        ∃ p links, W.behaves p links ∧ TalkedAs (fun _ i => links i)
          (fun link e => ∃ h s code rest, Agreed link ⟨m.infoHash, W.localId, p.address.ip⟩ e h s code rest) p.requiresCrypto
          cfg.general.encrypt := by
      intro template m tr s r now fileOk hg hres hw
      obtain ⟨-, hT, hP⟩ := accepted_usable (env := W.getEnv cfg) ha
      obtain ⟨h1, h2⟩ := get_written (template := template) ha hg hres
      by_cases hs : (getEffects { W.getEnv cfg with now := now, fileOk := fileOk } template r).2 = .success
      · obtain ⟨o, b, e, ht⟩ := h1 hs
        rw [e] at hw
        cases List.mem_singleton.1 hw
        refine ⟨ht, ?_⟩
        obtain ⟨info, ts, ns, rfl⟩ := get_done_iff template r hs
        obtain ⟨dht, -, hrun⟩ := hg.run
        obtain ⟨-, -, -, -, -, -, p, links, -, hb, hok⟩ := download_authentic hT hP hrun hres
        refine ⟨p, links, hb, ?_⟩
        have hr := run_spec W.sha1 links ⟨m.infoHash, W.localId, p.address.ip⟩ none cfg.general.encrypt p.requiresCrypto
        change (infoGetterRun W.sha1 links ⟨m.infoHash, W.localId, p.address.ip⟩ none cfg.general.encrypt p.requiresCrypto).2 = .ok info at hok
        rw [hok] at hr
        exact run_talked hr rfl rfl
      · rw [h2 hs] at hw
        cases hw
    generalize hcm : l.command = c at hr
    cases hr with
    | get hg hres =>
      obtain ⟨h1, h2⟩ := from_get (now := W.now) (fileOk := W.fileOk) hg hres hw
      exact ⟨_, _, .get hm hcm, h1, h2⟩
    | @batch template file tr jobs s code hb hex =>
      simp only [writesOf_flatMap, List.mem_flatMap] at hw
      obtain ⟨j, hj, hw⟩ := hw
      obtain ⟨content, ms, hf, hl, hjm⟩ := batch_links (env := W.getEnv cfg) ha hb hj
      obtain ⟨⟨gtr, gs, hg, hres⟩, he⟩ := hb.job j hj
      obtain ⟨h1, h2⟩ := from_get (template := template) hg hres (by rw [he]; exact hw)
      exact ⟨_, _, .batch hm hcm hf hl hjm, h1, h2⟩
    | queryTracker => cases hw
    | dhtError => cases hw
    | queryDht => cases hw
    | queryPeer hq => exact absurd hcm (hcmd _ _ _ _ _ _)

/-- **C88.** If the peer delivers, over the connection that the user wishes, metadata with the requested digest, and the file can be written, then
`query-peer` is successful whenever it ends. -/
theorem program_peer_finds (h : ProgramRun W args d) (hm : CommandLineMeans (cliReaders W.uenv W.lossy) args l)
    (hcmd : l.command = .queryPeer enc no pre template peer ih) (hcfg : AsksConfig (cliReaders W.uenv W.lossy) W args cfg) {data : Bytes} {e : Bool}
    (he : e = firstEncrypts (userWish enc pre no cfg.general.encrypt) false)
    (hd : Delivers (fun f m => Message.decode f reg42 = .ok m) ((W.raws 0).link W.H (W.chances 0) ih e) ⟨ih, W.localId, peer.address.ip⟩ e data)
    (hs : W.sha1 data = ih.bytes) (hi : IsInfoDict data) (hok : ∀ i, W.fileOk i = true) : d.code = some .success := by
  obtain ⟨effects, code, hq, rfl⟩ := program_peer_run h hm hcmd hcfg
  obtain ⟨arg, harg⟩ := program_peer_plain hm hcmd
  obtain ⟨effects', hq'⟩ := query_peer_finds (sha1 := W.sha1) (H := W.H) (env := W.queryPeerEnv cfg) (encrypt := enc) (prefer := pre)
    (noEncrypt := no) (template := template) harg (by rw [he, ← wish_userWish]; rfl) hd hs hi hok
  rw [hq] at hq'
  cases hq'
  rfl

end

/-! ### A concrete run -/

deriving instance DecidableEq for Peer

/-- The parts of a `query-peer` command. -/
def peerPart : Command → Option (List Bool × List TemplateElement × Peer × InfoHash)
  | .queryPeer enc no pre t p h => some ([enc, no, pre], t, p, h)
  | _ => none

theorem peerPart_eq {c : Command} {enc no pre : Bool} {t : List TemplateElement} {p : Peer} {h : InfoHash}
    (hc : peerPart c = some ([enc, no, pre], t, p, h)) : c = .queryPeer enc no pre t p h := by
  cases c <;> simp_all [peerPart]

/-- The peer talks, encrypted. -/
def exPeerWorld : World := { exWorld fun _ _ => True with H := sha1 }

theorem exPeer_mode (pref : CryptoPreference) :
    wireRun (fun _ => List.replicate 20 7) sha1 (fun _ => exChances) (fun _ => exRaw) exCtx (some .encrypt) pref false =
      wireRun (fun _ => List.replicate 20 7) sha1 (fun _ => exChances) (fun _ => exRaw) exCtx none .always true := by
  have h : ∀ (links : Nat → Link), infoGetterRun (fun _ => List.replicate 20 7) links exCtx (some .encrypt) pref false =
      infoGetterRun (fun _ => List.replicate 20 7) links exCtx none .always true := fun links => by
    unfold infoGetterRun
    rw [show getCryptoMode (some .encrypt) pref false = some .encrypt from rfl, show getCryptoMode none .always true = some .encrypt from rfl]
  have hb : (getCryptoMode (some .encrypt) pref false != some .plain) = (getCryptoMode none .always true != some .plain) := by
    cases pref <;> rfl
  unfold wireRun
  rw [h, hb]

theorem exPeer_env (cfg : Config) : exPeerWorld.queryPeerEnv cfg =
    ⟨exCtx.localId, cfg.general.encrypt, .ok 0, lossyUtf8, fun _ => none, fun _ => exChances, fun _ => exRaw, fun _ => true⟩ := rfl

theorem ask_encrypted {sha1 H : Bytes → Bytes} {id : PeerId} {pref : CryptoPreference} {now : Except Nat Nat} {lossy : Bytes → Text}
    {parent : Text → Option Text} {cs : Nat → Chances} {raws : Nat → RawLink} {ok : Nat → Bool} {peer : Peer} {ih : InfoHash} {ctx : PeerCtx}
    (hp : peer.requiresCrypto = false) (hc : (⟨ih, id, peer.address.ip⟩ : PeerCtx) = ctx) :
    (⟨id, pref, now, lossy, parent, cs, raws, ok⟩ : QueryPeerEnv).ask sha1 H true false false peer ih =
      wireRun sha1 H cs raws ctx (some .encrypt) pref false := by
  subst hc
  unfold QueryPeerEnv.ask
  rw [hp]
  rfl

theorem exPeer_asks (cfg : Config) : ((exPeerWorld.queryPeerEnv cfg).ask (fun _ => List.replicate 20 7) sha1 true false false exPeer exHash).2 =
    .ok ⟨exHash, ascii "de"⟩ := by
  rw [exPeer_env, ask_encrypted (ctx := exCtx) rfl rfl, exPeer_mode]
  exact exEncrypted_run

theorem queryPeer_saved {sha1 H : Bytes → Bytes} {env : QueryPeerEnv} {e p n : Bool} {template : List TemplateElement} {peer : Peer} {ih : InfoHash}
    {info : TorrentInfo} {es : List SaveEffect} (ha : (env.ask sha1 H e p n peer ih).2 = .ok info)
    (hs : (TorrentFile.new env.now info [] []).save env.lossy ipText env.parent template = some es) (hok : ∀ i, env.fileOk i = true) :
    queryPeer sha1 H env e p n template peer ih = some (es, .success) := by
  unfold queryPeer
  rw [ha]
  simp only [hs, performEffects_ok hok 0 es, if_true]

theorem exPeer_saves : ((TorrentFile.new (.ok 0) ⟨exHash, ascii "de"⟩ [] []).save lossyUtf8 ipText (fun _ => none) [.name]).isSome = true := by
  decide +kernel

theorem exPeer_success (cfg : Config) : ∃ effects, queryPeer (fun _ => List.replicate 20 7) sha1 (exPeerWorld.queryPeerEnv cfg) true false false
    [.name] exPeer exHash = some (effects, .success) := by
  obtain ⟨es, hes⟩ := Option.isSome_iff_exists.1 exPeer_saves
  exact ⟨es, queryPeer_saved (exPeer_asks cfg) hes (fun _ => rfl)⟩

set_option synthInstance.maxSize 2000 in
set_option synthInstance.maxHeartbeats 200000 in
theorem exPeer_line : ∃ l : CommandLine, CommandLine.parse nameEnv lossyUtf8 (["--no-config", "query-peer", "--encrypt", "-o", "{name}", "1.2.3.4:5",
      "0707070707070707070707070707070707070707"].map String.toList) = some l ∧ l.config = none ∧ l.noConfig = true ∧
      l.command = .queryPeer true false false [.name] exPeer exHash := by
  have key : (CommandLine.parse nameEnv lossyUtf8 (["--no-config", "query-peer", "--encrypt", "-o", "{name}", "1.2.3.4:5",
      "0707070707070707070707070707070707070707"].map String.toList)).map
      (fun l => (l.config, l.noConfig, peerPart l.command)) = some (none, true, some ([true, false, false], [.name], exPeer, exHash)) := by
    decide +kernel
  obtain ⟨l, hl, e⟩ := Option.map_eq_some_iff.1 key
  simp only [Prod.mk.injEq] at e
  exact ⟨l, hl, e.1, e.2.1, peerPart_eq e.2.2⟩

/-- `demagnetize --no-config query-peer --encrypt -o {name} 1.2.3.4:5 0707…` ends successfully, and the peer was talked to over an encrypted
connection. -/
example : ∃ d, ProgramRun exPeerWorld (["--no-config", "query-peer", "--encrypt", "-o", "{name}", "1.2.3.4:5",
      "0707070707070707070707070707070707070707"].map String.toList) d ∧ d.code = some .success ∧
    ∃ h s code rest, Agreed ((exPeerWorld.raws 0).link exPeerWorld.H (exPeerWorld.chances 0) exHash true)
      ⟨exHash, exPeerWorld.localId, exPeer.address.ip⟩ true h s code rest := by
  obtain ⟨l, hl, h1, h2, hcmd⟩ := exPeer_line
  have hc : exPeerWorld.config l = some (Config.dflt ⟨exNodes, 2⟩) := by
    unfold World.config
    rw [h1, h2]
    rfl
  obtain ⟨effects, hq⟩ := exPeer_success (Config.dflt ⟨exNodes, 2⟩)
  have hrun : ProgramRun exPeerWorld _ ⟨[], effects, some .success⟩ := .ran hl hc (by rw [hcmd]; exact .queryPeer hq)
  have := program_peer_encryption hrun rfl ((command_line_iff _ _ _ _).1 hl) hcmd ((program_config hl _).1 hc)
  exact ⟨_, hrun, rfl, this⟩

-- The hypotheses of `program_get_encryption` are met by the batch of `exProgram_run`.
example : ∃ answers d out bytes l cfg, DhtConfig.dflt (exWorld answers).parseHost = some (exWorld answers).dht ∧
    ProgramRun (exWorld answers) (["-cmy.toml", "batch", "-o", "{name}", "-"].map String.toList) d ∧ (out, bytes) ∈ writesOf d.effects ∧
    CommandLineMeans (cliReaders (exWorld answers).uenv (exWorld answers).lossy) (["-cmy.toml", "batch", "-o", "{name}", "-"].map String.toList) l ∧
    (∀ enc no pre template peer ih, l.command ≠ .queryPeer enc no pre template peer ih) ∧
    AsksConfig (cliReaders (exWorld answers).uenv (exWorld answers).lossy) (exWorld answers)
      (["-cmy.toml", "batch", "-o", "{name}", "-"].map String.toList) cfg := by
  obtain ⟨answers, d, h, -, hne⟩ := exProgram_run
  obtain ⟨⟨out, bytes⟩, hw⟩ := List.exists_mem_of_ne_nil _ hne
  have key : (CommandLine.parse nameEnv lossyUtf8 (["-cmy.toml", "batch", "-o", "{name}", "-"].map String.toList)).map
      (fun l => batchPart l.command) = some (some ([.name], .stdin)) := by decide +kernel
  have h' := h
  cases h' with
  | refused => cases hw
  | unconfigured => cases hw
  | @ran l cfg _ hp hc hr =>
    have hp' : CommandLine.parse nameEnv lossyUtf8 (["-cmy.toml", "batch", "-o", "{name}", "-"].map String.toList) = some l := hp
    rw [hp'] at key
    have hb := batchPart_eq (Option.some.inj key)
    refine ⟨answers, d, out, bytes, l, cfg, rfl, h, hw, (command_line_iff _ _ _ _).1 hp, ?_, (program_config hp cfg).1 hc⟩
    intro enc no pre template peer ih he
    rw [hb] at he
    cases he

end Props
end Demag
