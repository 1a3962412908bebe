import Verif.Spec.Silence
import Verif.Lemmas.NetAll
import Verif.Props.DhtTraffic
import Verif.Props.AppDht

/-!
# Auxiliary facts for C106: the DHT client in a batch with all its conversations
-/

namespace Demag

open Spec Props

section
variable {lookup : Text → BitVec 16 → Option (List SockAddr)} {nodes : List InetAddr}

/-- Every bootstrap address is one of a bootstrap node. -/
theorem bootstrap_few (my : NodeId) (v6 : Bool) (es : List DhtEvent) {st tr} (h : (DhtState.init my v6).run lookup nodes es = some (st, tr)) :
    (bootstrapOf es).length ≤ nodes.length := by
  induction es using List.reverseRecOn generalizing st tr with
  | nil => simp [bootstrapOf]
  | append_singleton es e ih =>
    obtain ⟨st1, tr1, out, h1, h2, -⟩ := DhtState.run_snoc _ _ _ h
    have ih := ih h1
    by_cases hr : resolvedOf e = none ∨ (es.findSome? resolvedOf).isSome
    · rw [(bootstrapOf_snoc es e hr).1]; exact ih
    · rw [not_or] at hr
      cases e with
      | resolved addrs =>
        simp only [DhtState.step] at h2
        split at h2
        · rename_i hc
          have hl := (List.isPerm_iff.1 hc.2).length_eq
          have hn : es.findSome? resolvedOf = none := by
            cases hx : es.findSome? resolvedOf with
            | none => rfl
            | some x => rw [hx] at hr; exact absurd rfl hr.2
          have : (es ++ [DhtEvent.resolved addrs]).findSome? resolvedOf = some addrs := by
            rw [List.findSome?_append, hn]; rfl
          unfold bootstrapOf
          rw [this]
          change addrs.length ≤ _
          rw [hl]
          exact List.length_filterMap_le _ _
        · cases h2
      | _ => exact absurd rfl hr.1

/-- How many queries a client sends. -/
theorem queries_few (my : NodeId) (v6 : Bool) (es : List DhtEvent) {st tr} (h : (DhtState.init my v6).run lookup nodes es = some (st, tr)) :
    (queries tr).length ≤ (bootstrapOf es).length * (submitted es).length + 8 * (packetsIn es).length := by
  have v := StInv.run my v6 es h
  obtain ⟨t1, t2⟩ := dht_replies_arrived my v6 es st tr h
  let K := (lookupsStarted tr).dedup
  have hK : K.Nodup := List.nodup_dedup _
  have hKl : K.length ≤ (submitted es).length := Nat.le_trans (List.dedup_sublist _).length_le t2
  have hmem : ∀ q ∈ queries tr, q.1 ∈ K := by
    intro q hq
    obtain ⟨req, hash, h1, -⟩ := v.act.fields q hq
    exact List.mem_dedup.2 (List.mem_filterMap.2 ⟨_, h1, rfl⟩)
  have hq := (sum_keys (fun q : Nat × SockAddr × GetPeersQuery => q.1) (fun _ => 1) K hK (queries tr)).2 hmem
  have hr8 := (sum_keys (fun q : Nat × SockAddr × Bytes => q.1) (fun _ => 8) K hK (repliesTaken tr)).1
  have ones : ∀ {α : Type} (l : List α) (n : Nat), (l.map fun _ => n).sum = n * l.length := by
    intro α l n
    induction l with
    | nil => rfl
    | cons x l ih => rw [List.map_cons, List.sum_cons, ih, List.length_cons, Nat.mul_add, Nat.mul_one, Nat.add_comm]
  have hqb : ∀ sid, (queriedBy sid tr).length = ((queries tr).filter fun q => q.1 = sid).length := by
    intro sid; unfold queriedBy; rw [List.length_map]
  have hsum : ∀ K : List Nat, (K.map fun k => (((queries tr).filter fun x => x.1 = k).map fun _ => 1).sum).sum ≤
        (bootstrapOf es).length * K.length + (K.map fun k => (((repliesTaken tr).filter fun x => x.1 = k).map fun _ => 8).sum).sum := by
    intro K
    induction K with
    | nil => simp
    | cons k K ih =>
      obtain ⟨f1, -⟩ := v.few k
      have g1 : (((queries tr).filter fun x => x.1 = k).map fun _ => 1).sum ≤
          (bootstrapOf es).length + (((repliesTaken tr).filter fun x => x.1 = k).map fun _ => 8).sum := by
        rw [ones, ones, Nat.one_mul, ← hqb]; exact f1
      simp only [List.map_cons, List.sum_cons, List.length_cons, Nat.mul_add, Nat.mul_one] at ih ⊢
      omega
  have s1 := hsum K
  rw [hq] at s1
  rw [ones] at s1 hr8
  have hb : (bootstrapOf es).length * K.length ≤ (bootstrapOf es).length * (submitted es).length := Nat.mul_le_mul_left _ hKl
  have hl : (repliesTaken tr).length ≤ (packetsIn es).length := by
    have := t1.length_le
    rwa [List.length_map] at this
  omega

/-- While a request waits, the client has something to do by itself. -/
theorem pending_progress (my : NodeId) (v6 : Bool) (es : List DhtEvent) {st tr} (h : (DhtState.init my v6).run lookup nodes es = some (st, tr))
    (hbo : (bootstrapOf es).length ≤ 2 ^ 32) (hq : (queries tr).length ≤ 2 ^ 32) (hw : st.pending ≠ []) :
    ∃ e, isInternal e = true ∧ (st.step lookup nodes e).isSome = true := by
  refine lookup_progress my v6 es st tr h hbo (no_reuse my v6 es st tr h hq) fun hp => hw ?_
  have h1 := (StInv.run my v6 es h).requests
  have h2 := h1.symm.trans hp
  have := h2.length_eq
  rw [List.length_append] at this
  exact List.length_eq_zero_iff.1 (by change (DhtState.pending st).length = 0; unfold DhtState.pending; omega)

end

section
variable {sha1 : Bytes → Bytes} {env : GetEnv} {resolve : Text → BitVec 16 → Option (List SockAddr)} {template : List TemplateElement} {ms : List Magnet}
  {tr : NetTrace} {s s' : NetBatch} {e : NetEvent} {out : List NetOutput}

/-- The events with the DHT client. -/
def dhtEvents (tr : NetTrace) : List AppDhtEvent := tr.filterMap fun x => match x.1 with | .dht e => some e | _ => none

/-- What is observed of it. -/
def dhtPart : NetOutput → Option AppDhtOutput
  | .dht o => some o
  | _ => none

/-- All of it, in order. -/
def dhtOutputs (tr : NetTrace) : List AppDhtOutput := (tr.flatMap Prod.snd).filterMap dhtPart

/-- What is known of the lookups. -/
structure DhtNow (env : GetEnv) (resolve : Text → BitVec 16 → Option (List SockAddr)) (ms : List Magnet) (tr : NetTrace) (s : NetBatch) : Prop where
  cell : AppDhtInv (dhtEvents tr) s.dht (dhtOutputs tr)
  client : ∀ a, s.dht.client = some a → ∃ my v6 des dtr, (DhtState.init my v6).run resolve env.cfg.dht.bootstrapNodes des = some (a, dtr) ∧
    (packetsIn des).length ≤ (dhtPackets tr).length ∧ (submitted des).length ≤ (lookupsBegun (dhtEvents tr)).length
  nodup : (lookupsBegun (dhtEvents tr)).Nodup
  begun : ∀ n, n ∈ lookupsBegun (dhtEvents tr) ↔ (s.lookups n).isSome = true
  range : ∀ n ∈ lookupsBegun (dhtEvents tr), n < ms.length
  ended : ∀ n ∈ endedTasks (dhtOutputs tr), (s.found n).isSome = true
  kept : s.fleet.batch.exit = none → lookupsAborted (dhtEvents tr) = []

theorem dhtEvents_snoc (tr : NetTrace) (e : NetEvent) (out : List NetOutput) :
    dhtEvents (tr ++ [(e, out)]) = dhtEvents tr ++ (match e with | .dht e => [e] | _ => []) := by
  unfold dhtEvents
  rw [List.filterMap_append]
  cases e <;> rfl

theorem dhtOutputs_snoc (tr : NetTrace) (e : NetEvent) (out : List NetOutput) :
    dhtOutputs (tr ++ [(e, out)]) = dhtOutputs tr ++ out.filterMap dhtPart := by simp [dhtOutputs]

theorem dhtPackets_snoc (tr : NetTrace) (x : NetEvent × List NetOutput) :
    (dhtPackets (tr ++ [x])).length = (dhtPackets tr).length + (dhtPacket x).toList.length := by
  unfold dhtPackets
  rw [List.filterMap_append, List.length_append]
  cases h : dhtPacket x <;> simp [h]

theorem dhtPart_dht (o : List AppDhtOutput) : (o.map NetOutput.dht).filterMap dhtPart = o := by
  induction o with
  | nil => rfl
  | cons x l ih => rw [List.map_cons, List.filterMap_cons_some (by rfl), ih]

theorem dhtPart_none {out : List NetOutput} (h : ∀ o ∈ out, dhtPart o = none) : out.filterMap dhtPart = [] := List.filterMap_eq_nil_iff.2 h

theorem hearDht_keeps : ∀ (o : List AppDhtOutput) {found : Nat → Option (Except TaskError (List Peer × List SockAddr))} {n : Nat},
    ((found n).isSome = true ∨ n ∈ endedTasks o) → (hearDht found o n).isSome = true := by
  intro o
  induction o with
  | nil =>
    intro found n h
    rcases h with h | h
    · exact h
    · cases h
  | cons x l ih =>
    intro found n h
    have put : ∀ t d, lookupEnd x = some t → (setAt found t (some d) n).isSome = true ∨ n ∈ endedTasks l := by
      intro t d hx
      by_cases hn : n = t
      · subst hn; left; rw [setAt_same]; rfl
      · rcases h with h | h
        · left; rw [setAt_other _ _ hn]; exact h
        · right
          unfold endedTasks at h ⊢
          rw [List.filterMap_cons_some hx, List.mem_cons] at h
          exact h.resolve_left hn
    have skip : lookupEnd x = none → (found n).isSome = true ∨ n ∈ endedTasks l := by
      intro hx
      rcases h with h | h
      · exact .inl h
      · right
        unfold endedTasks at h ⊢
        rwa [List.filterMap_cons_none hx] at h
    cases x with
    | failed t => exact ih (put t _ rfl)
    | effect y =>
      cases y with
      | answer t r => exact ih (put t _ rfl)
      | down t => exact ih (put t _ rfl)
      | _ => exact ih (skip rfl)

theorem DhtNow.outer (v : DhtNow env resolve ms tr s) (he : ∀ de, e ≠ .dht de) (ho : ∀ o ∈ out, dhtPart o = none) (h1 : s'.dht = s.dht) (h2 : s'.lookups = s.lookups)
    (h3 : s'.found = s.found) (h4 : s'.fleet.batch.exit = none → s.fleet.batch.exit = none) : DhtNow env resolve ms (tr ++ [(e, out)]) s' := by
  have q1 : dhtEvents (tr ++ [(e, out)]) = dhtEvents tr := by
    rw [dhtEvents_snoc]
    cases e with
    | dht de => exact absurd rfl (he de)
    | _ => simp
  have q2 : dhtOutputs (tr ++ [(e, out)]) = dhtOutputs tr := by rw [dhtOutputs_snoc, dhtPart_none ho, List.append_nil]
  refine ⟨by rw [q1, q2, h1]; exact v.cell, ?_, by rw [q1]; exact v.nodup, by rw [q1, h2]; exact v.begun, by rw [q1]; exact v.range, by rw [q2, h3]; exact v.ended,
    fun h => by rw [q1]; exact v.kept (h4 h)⟩
  rw [h1, q1]
  intro a ha
  obtain ⟨my, v6, des, dtr, r1, r2, r3⟩ := v.client a ha
  exact ⟨my, v6, des, dtr, r1, by rw [dhtPackets_snoc]; omega, r3⟩

theorem DhtNow.dhtMove (hj : 0 < env.cfg.general.batchJobs) {ftr : MagnetFleetTrace} (hp : ProgInv env ms tr ftr s) (v : DhtNow env resolve ms tr s) {de lk d o}
    (hlk : lk = s.lookups ∧ (∀ n, de ≠ AppDhtEvent.lock n) ∨ ∃ n m, de = .lock n ∧ runningJob s.fleet.batch.nursery n = some m ∧ m.trackers = [] ∧
        s.fleet.work n = none ∧ s.lookups n = none ∧ lk = setAt s.lookups n (some m.infoHash))
    (hd : ∀ n, de = .dropped n → s.fleet.batch.exit ≠ none)
    (hs : s.dht.step (fun n => (lk n).getD ⟨List.replicate 20 0, by decide⟩) resolve env.cfg.dht.bootstrapNodes de = some (d, o)) :
    DhtNow env resolve ms (tr ++ [(.dht de, o.map .dht)]) { s with lookups := lk, dht := d, found := hearDht s.found o } := by
  have q1 : dhtEvents (tr ++ [(NetEvent.dht de, o.map NetOutput.dht)]) = dhtEvents tr ++ [de] := dhtEvents_snoc ..
  have q2 : dhtOutputs (tr ++ [(NetEvent.dht de, o.map NetOutput.dht)]) = dhtOutputs tr ++ o := by rw [dhtOutputs_snoc, dhtPart_dht]
  have q3 : lookupsBegun (dhtEvents tr ++ [de]) = lookupsBegun (dhtEvents tr) ++ lookupsBegun [de] := by simp [lookupsBegun]
  have q4 : lookupsAborted (dhtEvents tr ++ [de]) = lookupsAborted (dhtEvents tr) ++ lookupsAborted [de] := by simp [lookupsAborted]
  have q5 : endedTasks (dhtOutputs tr ++ o) = endedTasks (dhtOutputs tr) ++ endedTasks o := by simp [endedTasks]
  have new : (lookupsBegun [de] = [] ∧ lk = s.lookups) ∨ ∃ n m, de = .lock n ∧ lookupsBegun [de] = [n] ∧ n ∉ lookupsBegun (dhtEvents tr) ∧ n < ms.length ∧
      lk = setAt s.lookups n (some m) := by
    rcases hlk with ⟨h1, h2⟩ | ⟨n, m, rfl, hr, -, -, hn, h1⟩
    · left
      refine ⟨?_, h1⟩
      cases de with
      | lock n => exact absurd rfl (h2 n)
      | _ => rfl
    · right
      refine ⟨n, m.infoHash, rfl, rfl, ?_, (List.getElem?_eq_some_iff.1 (net_running hj hp.run hr)).1, h1⟩
      rw [v.begun, hn]
      simp
  have cell := v.cell.step de hs
  refine ⟨by rw [q1, q2]; exact cell, ?_, ?_, ?_, ?_, ?_, ?_⟩
  · intro a' ha'
    change d.client = some a' at ha'
    have hb : (lookupsBegun (dhtEvents tr ++ [de])).length = (lookupsBegun (dhtEvents tr)).length + (lookupsBegun [de]).length := by rw [q3, List.length_append]
    rw [q1, hb, dhtPackets_snoc]
    -- a step of a client
    have go : ∀ a ev eo, a.step resolve env.cfg.dht.bootstrapNodes ev = some (a', eo) → s.dht.client = some a →
        (packetOf ev).toList.length ≤ (dhtPacket (NetEvent.dht de, o.map NetOutput.dht)).toList.length → (submitted [ev]).length ≤ (lookupsBegun [de]).length →
        ∃ my v6 des dtr, (DhtState.init my v6).run resolve env.cfg.dht.bootstrapNodes des = some (a', dtr) ∧
          (packetsIn des).length ≤ (dhtPackets tr).length + (dhtPacket (NetEvent.dht de, o.map NetOutput.dht)).toList.length ∧
          (submitted des).length ≤ (lookupsBegun (dhtEvents tr)).length + (lookupsBegun [de]).length := by
      intro a ev eo hst ha hp1 hp2
      obtain ⟨my, v6, des, dtr, r1, r2, r3⟩ := v.client a ha
      refine ⟨my, v6, des ++ [ev], dtr ++ eo, DhtState.run_append_one _ _ _ r1 hst, ?_, ?_⟩
      · have : (packetsIn (des ++ [ev])).length = (packetsIn des).length + (packetOf ev).toList.length := by
          unfold packetsIn
          rw [List.filterMap_append, List.length_append]
          cases h : packetOf ev <;> simp [h]
        omega
      · have : submitted (des ++ [ev]) = submitted des ++ submitted [ev] := by simp [submitted]
        rw [this, List.length_append]
        omega
    generalize hsd : s.dht = sd at hs
    obtain ⟨⟨holder, cached, spawned⟩, client⟩ := sd
    cases de with
    | lock t =>
      simp only [AppDht.step, DhtCell.step] at hs
      cases holder with
      | some x => cases hs
      | none =>
        cases cached with
        | none =>
          simp only [Option.some.injEq, Prod.mk.injEq] at hs
          obtain ⟨rfl, rfl⟩ := hs
          have hc : s.dht.client = some a' := by rw [hsd]; exact ha'
          obtain ⟨my, v6, des, dtr, r1, r2, r3⟩ := v.client a' hc
          exact ⟨my, v6, des, dtr, r1, by omega, by omega⟩
        | some n =>
          cases client with
          | none => cases hs
          | some a =>
            simp only [Option.map_eq_some_iff] at hs
            obtain ⟨⟨a1, eo⟩, hst, hs⟩ := hs
            cases hs
            cases ha'
            exact go a _ eo hst (by rw [hsd]) (Nat.zero_le _) (Nat.le_refl _)
    | created t my bind4 bind6 =>
      simp only [AppDht.step] at hs
      cases hc : DhtState.create my bind4 bind6 with
      | none =>
        rw [hc] at hs
        simp only [Option.map_eq_some_iff] at hs
        obtain ⟨r, -, hs⟩ := hs
        cases hs
        obtain ⟨my, v6, des, dtr, r1, r2, r3⟩ := v.client a' (by rw [hsd]; exact ha')
        exact ⟨my, v6, des, dtr, r1, by omega, by omega⟩
      | some a =>
        rw [hc] at hs
        simp only [DhtCell.step, if_true] at hs
        by_cases hh : holder = some (t, false)
        · subst hh
          rw [if_pos rfl] at hs
          simp only [Option.map_eq_some_iff] at hs
          obtain ⟨⟨a1, eo⟩, hst, hs⟩ := hs
          cases hs
          cases ha'
          have hcr := (Props.dht_created my bind4 bind6).2.1 a hc
          subst hcr
          have hrun := DhtState.run_append_one _ [] _ (by rfl) hst
          refine ⟨my, _, _, _, hrun, Nat.zero_le _, ?_⟩
          have hlen := v.cell.count.length_eq
          simp only [List.length_append, waitingTasks, hsd, List.length_cons, List.length_nil] at hlen
          change 1 ≤ _
          omega
        · rw [if_neg hh] at hs
          cases hs
    | dropped t =>
      simp only [AppDht.step, Option.map_eq_some_iff] at hs
      obtain ⟨r, -, hs⟩ := hs
      cases hs
      obtain ⟨my, v6, des, dtr, r1, r2, r3⟩ := v.client a' (by rw [hsd]; exact ha')
      exact ⟨my, v6, des, dtr, r1, by omega, by omega⟩
    | client ev =>
      simp only [AppDht.step] at hs
      cases client with
      | none => cases hs
      | some a =>
        simp only at hs
        split at hs
        · cases hs
        · rename_i hsub
          rw [Option.map_eq_some_iff] at hs
          obtain ⟨⟨a1, eo⟩, hst, hs⟩ := hs
          cases hs
          cases ha'
          refine go a ev eo hst (by rw [hsd]) (Nat.le_refl _) ?_
          cases ev with
          | submit m => exact absurd rfl hsub
          | _ => exact Nat.le_refl _
  · rw [q1, q3]
    rcases new with ⟨h1, -⟩ | ⟨n, m, -, h1, h2, -, -⟩
    · rw [h1, List.append_nil]; exact v.nodup
    · rw [h1, List.nodup_append]
      refine ⟨v.nodup, by simp, ?_⟩
      intro a ha b hb
      cases List.mem_singleton.1 hb
      rintro rfl
      exact h2 ha
  · intro n
    rw [q1, q3, List.mem_append, v.begun]
    change _ ↔ (lk n).isSome = true
    rcases new with ⟨h1, h2⟩ | ⟨k, m, -, h1, -, -, h2⟩
    · rw [h1, h2]; simp
    · rw [h1, h2]
      by_cases hn : n = k
      · subst hn; rw [setAt_same]; simp
      · rw [setAt_other _ _ hn]; simp [hn]
  · rw [q1, q3]
    intro n hn
    rcases List.mem_append.1 hn with hn | hn
    · exact v.range n hn
    · rcases new with ⟨h1, -⟩ | ⟨k, m, -, h1, -, h2, -⟩
      · rw [h1] at hn; cases hn
      · rw [h1] at hn; cases List.mem_singleton.1 hn; exact h2
  · intro n hn
    rw [q2, q5, List.mem_append] at hn
    refine hearDht_keeps o ?_
    rcases hn with hn | hn
    · exact .inl (v.ended n hn)
    · exact .inr hn
  · intro hx
    change s.fleet.batch.exit = none at hx
    rw [q1, q4, v.kept hx]
    cases de with
    | dropped n => exact absurd hx (hd n rfl)
    | _ => rfl

end

end Demag
