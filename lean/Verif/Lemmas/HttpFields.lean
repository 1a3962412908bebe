import Verif.Spec.TrackerHttp
import Verif.Model.TrackerHttp
import Verif.Lemmas.Fields
import Verif.Props.Compact

/-! Helper lemmas for the decoding of HTTP tracker responses. -/

namespace Demag

open Spec

/-- A field of the state that the key sets. -/
macro "field_hit" d:ident : tactic => `(tactic| (
  intro s v s' h
  simp (decide := true) only [$d:ident, ↓reduceIte] at h
  obtain ⟨x, hx, hs⟩ := Option.map_eq_some_iff.1 h
  subst hs
  exact ⟨by first | exact hx.symm | simp [hx], by rw [hx]; rfl⟩))

/-- A field of the state that other keys do not touch. -/
macro "field_miss" d:ident : tactic => `(tactic| (
  intro s k' v s' hk h
  simp only [$d:ident, if_neg hk] at h
  (repeat' split at h) <;> first
    | (cases h; rfl)
    | (obtain ⟨x, hx, hs⟩ := Option.map_eq_some_iff.1 h; subst hs; rfl)))

/-! ### One peer -/

theorem peerFields_fold (parseIp : Text → Option IpAddr) (kvs : List (Bytes × Ben)) (hn : NodupKeys kvs) (s : PeerFields) :
    kvs.foldlM (PeerFields.readPair parseIp) {} = some s ↔
      fieldIs (key "peer id") kvs (fun v => (benBytes v).bind PeerId.ofBytes) s.id ∧
      fieldIs (key "ip") kvs (fun v => (benText v).bind parseIp) s.ip ∧
      fieldIs (key "port") kvs (benUint 16) s.port := by
  have forward : ∀ s, kvs.foldlM (PeerFields.readPair parseIp) {} = some s →
      fieldIs (key "peer id") kvs (fun v => (benBytes v).bind PeerId.ofBytes) s.id ∧
      fieldIs (key "ip") kvs (fun v => (benText v).bind parseIp) s.ip ∧
      fieldIs (key "port") kvs (benUint 16) s.port := by
    intro s h
    refine ⟨foldlM_fieldIs (·.id) _ _ ?_ ?_ kvs hn {} s h rfl, foldlM_fieldIs (·.ip) _ _ ?_ ?_ kvs hn {} s h rfl,
      foldlM_fieldIs (·.port) _ _ ?_ ?_ kvs hn {} s h rfl⟩
    · field_hit PeerFields.readPair
    · field_miss PeerFields.readPair
    · field_hit PeerFields.readPair
    · field_miss PeerFields.readPair
    · field_hit PeerFields.readPair
    · field_miss PeerFields.readPair
  constructor
  · exact forward s
  · rintro ⟨h1, h2, h3⟩
    have hs : (kvs.foldlM (PeerFields.readPair parseIp) {}).isSome := by
      apply foldlM_isSome
      intro kv hkv s
      obtain ⟨k, v⟩ := kv
      unfold PeerFields.readPair
      split
      · rename_i hk; rw [Option.isSome_map]; exact fieldIs_mem hn h1 hkv hk
      · split
        · rename_i hk; rw [Option.isSome_map]; exact fieldIs_mem hn h2 hkv hk
        · split
          · rename_i hk; rw [Option.isSome_map]; exact fieldIs_mem hn h3 hkv hk
          · rfl
    obtain ⟨s', hs'⟩ := Option.isSome_iff_exists.1 hs
    rw [hs']
    obtain ⟨g1, g2, g3⟩ := forward s' hs'
    have u1 := fieldIs_unique g1 h1
    have u2 := fieldIs_unique g2 h2
    have u3 := fieldIs_unique g3 h3
    congr 1
    obtain ⟨e, m, v⟩ := s
    obtain ⟨e', m', v'⟩ := s'
    simp only at u1 u2 u3
    subst u1 u2 u3
    rfl

theorem optField_some {α : Type} {k : String} {kvs : List (Bytes × Ben)} {P : Ben → α → Prop} {x : α} :
    OptField k kvs P (some x) ↔ ReqField k kvs P x := by
  unfold OptField ReqField
  cases lookup (keyBytes k) kvs <;> simp

theorem peerIdOfBytes_iff (v : Ben) (x : PeerId) : (benBytes v).bind PeerId.ofBytes = some x ↔ v = .bytes x.bytes := by
  obtain ⟨b, hb⟩ := x
  cases v with
  | bytes c =>
    simp only [benBytes, Option.bind_some, PeerId.ofBytes, Ben.bytes.injEq]
    constructor
    · intro h
      split at h
      · simp only [Option.some.injEq, PeerId.mk.injEq] at h; exact h
      · cases h
    · rintro rfl; rw [dif_pos hb]
  | _ => simp [benBytes]

theorem ipText_iff (parseIp : Text → Option IpAddr) (v : Ben) (x : IpAddr) :
    (benText v).bind parseIp = some x ↔ ∃ t, v = .bytes (utf8 t) ∧ parseIp t = some x := by
  constructor
  · intro h
    cases e : benText v with
    | none => rw [e] at h; cases h
    | some t => rw [e] at h; exact ⟨t, (benText_iff v t).1 e, h⟩
  · rintro ⟨t, rfl, h⟩
    rw [(benText_iff _ t).2 rfl]; exact h

theorem peerOfBen_iff (parseIp : Text → Option IpAddr) (v : Ben) (hc : Canonical v) (p : Peer) :
    Peer.ofBen parseIp v = some p ↔ IsPeerDict parseIp v p := by
  unfold Peer.ofBen IsPeerDict
  constructor
  · intro h
    simp only [bind, Option.bind_eq_some_iff] at h
    obtain ⟨kvs, hk, s, hs, ip, hip, port, hport, hp⟩ := h
    have hv := (benDict_iff v kvs).1 hk
    subst hv
    rw [Canonical] at hc
    obtain ⟨h1, h2, h3⟩ := (peerFields_fold parseIp kvs (sortedKeys_nodup hc.1) s).1 hs
    rw [hip] at h2
    rw [hport] at h3
    simp only [Option.some.injEq] at hp
    subst hp
    refine ⟨kvs, ip, port, rfl, ?_, ?_, ?_, ?_, rfl⟩
    · exact optField_some.1 ((fieldIs_iff "ip" kvs _ _ (fun v a _ => ipText_iff parseIp v a) _).1 h2)
    · exact optField_some.1 ((fieldIs_iff "port" kvs _ _ (fun v a _ => benUint_iff v a) _).1 h3)
    · exact (fieldIs_iff "peer id" kvs _ _ (fun v a _ => peerIdOfBytes_iff v a) _).1 h1
    · cases ip <;> rfl
  · rintro ⟨kvs, ip, port, rfl, h2, h3, h1, ha, hr⟩
    rw [Canonical] at hc
    obtain ⟨pa, pid, pr⟩ := p
    simp only at h1 ha hr
    have := (peerFields_fold parseIp kvs (sortedKeys_nodup hc.1) ⟨pid, some ip, some port⟩).2
      ⟨(fieldIs_iff "peer id" kvs _ _ (fun v a _ => peerIdOfBytes_iff v a) _).2 h1,
       (fieldIs_iff "ip" kvs _ _ (fun v a _ => ipText_iff parseIp v a) _).2 (optField_some.2 h2),
       (fieldIs_iff "port" kvs _ _ (fun v a _ => benUint_iff v a) _).2 (optField_some.2 h3)⟩
    simp only [benDict, bind, Option.bind_some, this, Option.some.injEq, Peer.mk.injEq]
    refine ⟨?_, trivial, hr.symm⟩
    rw [ha]; cases ip <;> rfl

/-! ### Lists of peers -/

theorem mapM_forall₂ {α β : Type} (f : α → Option β) (P : α → β → Prop) (l : List α)
    (h : ∀ a ∈ l, ∀ b, f a = some b ↔ P a b) (bs : List β) : l.mapM f = some bs ↔ List.Forall₂ P l bs := by
  induction l generalizing bs with
  | nil =>
    simp only [List.mapM_nil, pure, Option.some.injEq]
    constructor
    · rintro rfl; exact .nil
    · intro h; cases h; rfl
  | cons a l ih =>
    rw [List.mapM_cons]
    have ih' := ih (fun a' h' => h a' (List.mem_cons_of_mem _ h'))
    constructor
    · intro hh
      cases e : f a with
      | none => rw [e] at hh; cases hh
      | some b =>
        cases e2 : l.mapM f with
        | none => rw [e, e2] at hh; cases hh
        | some bs' =>
          rw [e, e2] at hh
          cases hh
          exact .cons ((h a (List.mem_cons_self ..) b).1 e) ((ih' bs').1 e2)
    · intro hh
      cases hh with
      | cons h1 h2 =>
        rw [(h a (List.mem_cons_self ..) _).2 h1, (ih' _).2 h2]; rfl

theorem canonicalList_mem {l : List Ben} (h : CanonicalList l) : ∀ v ∈ l, Canonical v := by
  induction l with
  | nil => simp
  | cons v l ih =>
    intro w hw
    rcases List.mem_cons.1 hw with rfl | hw
    · exact h.1
    · exact ih h.2 w hw

theorem except_toOption {ε α : Type} (e : Except ε α) (x : α) : e.toOption = some x ↔ e = .ok x := by
  cases e <;> simp [Except.toOption]

theorem map_ofAddr {α : Type} (mk : α → SockAddr) (f : α → Peer) (hf : ∀ a, f a = ⟨mk a, none, false⟩) (as : List α)
    (ps : List Peer) : as.map f = ps ↔ List.Forall₂ (fun a p => IsPlainPeer (mk a) p) as ps := by
  induction as generalizing ps with
  | nil =>
    constructor
    · rintro rfl; exact .nil
    · intro h; cases h; rfl
  | cons a as ih =>
    constructor
    · rintro rfl
      refine .cons ?_ ((ih _).1 rfl)
      rw [hf]; exact ⟨rfl, rfl, rfl⟩
    · intro h
      cases h with
      | cons h1 h2 =>
        rename_i p ps
        rw [List.map_cons, (ih _).2 h2, hf]
        obtain ⟨pa, pi, pr⟩ := p
        obtain ⟨h3, h4, h5⟩ := h1
        simp only at h3 h4 h5
        rw [h3, h4, h5]

theorem benPeers6_iff (v : Ben) (ps : List Peer) : benPeers6 v = some ps ↔ IsPeers6 v ps := by
  unfold benPeers6 IsPeers6
  constructor
  · intro h
    obtain ⟨as, h1, h2⟩ := Option.map_eq_some_iff.1 h
    obtain ⟨b, h3, h4⟩ := Option.bind_eq_some_iff.1 h1
    exact ⟨b, as, (benBytes_iff v b).1 h3, (Props.v6s_spec b as).1 ((except_toOption _ _).1 h4),
      (map_ofAddr (fun a => .v6 a) Peer.ofV6 (fun _ => rfl) as ps).1 h2⟩
  · rintro ⟨b, as, rfl, h1, h2⟩
    rw [(benBytes_iff _ b).2 rfl, Option.bind_some, (except_toOption _ _).2 ((Props.v6s_spec b as).2 h1), Option.map_some,
      (map_ofAddr (fun a => .v6 a) Peer.ofV6 (fun _ => rfl) as ps).2 h2]

theorem benPeers_iff (parseIp : Text → Option IpAddr) (v : Ben) (hc : Canonical v) (ps : List Peer) :
    benPeers parseIp v = some ps ↔ IsPeers parseIp v ps := by
  unfold IsPeers
  cases v with
  | list l =>
    rw [Canonical] at hc
    simp only [benPeers, Ben.list.injEq, exists_eq_left', reduceCtorEq, false_and, exists_false, or_false]
    exact mapM_forall₂ _ _ l (fun a ha b => peerOfBen_iff parseIp a (canonicalList_mem hc a ha) b) ps
  | bytes b =>
    simp only [benPeers, benBytes, Option.bind_some, reduceCtorEq, false_and, exists_false, false_or, Ben.bytes.injEq]
    constructor
    · intro h
      obtain ⟨as, h1, h2⟩ := Option.map_eq_some_iff.1 h
      exact ⟨b, as, rfl, (Props.v4s_spec b as).1 ((except_toOption _ _).1 h1),
        (map_ofAddr (fun a => .v4 a) Peer.ofV4 (fun _ => rfl) as ps).1 h2⟩
    · rintro ⟨b', as, rfl, h1, h2⟩
      rw [(except_toOption _ _).2 ((Props.v4s_spec _ as).2 h1), Option.map_some,
        (map_ofAddr (fun a => .v4 a) Peer.ofV4 (fun _ => rfl) as ps).2 h2]
  | _ => simp [benPeers, benBytes]

end Demag
