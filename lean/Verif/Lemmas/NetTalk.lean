import Verif.Lemmas.NetKeep

/-!
# Auxiliary facts about a batch with all its conversations: trackers and peers
-/

namespace Demag

open Spec Props

section
variable {sha1 : Bytes → Bytes} {env : GetEnv} {resolve : Text → BitVec 16 → Option (List SockAddr)} {template : List TemplateElement} {ms : List Magnet}
  {tr : NetTrace} {ftr : MagnetFleetTrace} {s s' : NetBatch} {e : NetEvent} {out : List NetOutput}

/-- The link of a download stays. -/
theorem ProgInv.kept (v : ProgInv env ms tr ftr s) (hm : NetMove sha1 env resolve template s s' e out) {n : Nat} {m : Magnet}
    (h : s.link n = some m) : s'.link n = some m := by
  cases hm with
  | @inner _ fe fo hi _ _ =>
    rcases hi.link with ⟨hl, -⟩ | ⟨k, d, m', rfl, -, hl, -⟩
    · rw [hl]; exact h
    · rw [hl, setAt_other]
      · exact h
      · rintro rfl
        have := fleet_moves hi.step
        cases this with
        | begins _ hw _ => rw [v.idle n hw] at h; cases h
  | dht _ _ hs => subst hs; exact h
  | trackerBegins _ _ _ _ hs => subst hs; exact h
  | tracker _ _ _ hs => subst hs; exact h
  | leftover _ _ _ _ _ hs => subst hs; exact h
  | peerBegins _ _ _ _ hs => subst hs; exact h

theorem conversation_snoc (n k : Nat) (tr : NetTrace) (x : NetEvent × List NetOutput) :
    conversation n k (tr ++ [x]) = conversation n k tr ++ (askPart n k x).toList := by
  unfold conversation
  rw [List.filterMap_append]
  cases h : askPart n k x <;> simp [List.filterMap_cons, h]

theorem askPart_other {n k : Nat} {e : NetEvent} {out : List NetOutput} (h : ∀ ae, e ≠ .tracker n k ae) : askPart n k (e, out) = none := by
  cases e with
  | tracker n' k' ae =>
    simp only [askPart]
    rw [if_neg]
    rintro ⟨rfl, rfl⟩
    exact h ae rfl
  | _ => rfl

theorem askPart_same (n k : Nat) (ae : AskEvent) (t : Tracker) (o : List AskOutput) :
    askPart n k (.tracker n k ae, o.map (.tracker n k t)) = some (ae, o) := by
  simp only [askPart, and_self, if_true, Option.some.injEq, Prod.mk.injEq, true_and]
  induction o with
  | nil => rfl
  | cons x l ih => rw [List.map_cons, List.filterMap_cons_some (by rfl), ih]

theorem conversation_kept {n k : Nat} (h : ∀ ae, e ≠ .tracker n k ae) : conversation n k (tr ++ [(e, out)]) = conversation n k tr := by
  rw [conversation_snoc, askPart_other h]
  simp

/-- What is known of the tasks that ask trackers. -/
structure NetAskInv (env : GetEnv) (tr : NetTrace) (s : NetBatch) : Prop where
  fresh : ∀ n k, s.asks n k = none → conversation n k tr = []
  begun : ∀ n k a, s.asks n k = some a → ∃ m, s.link n = some m ∧ m.trackers[k]? = some a.tracker ∧
    AskRun env.lossy env.parseIp a.tracker (env.getter m) (conversation n k tr) a.ask ∧
    ∀ r, a.result = some r → .result r ∈ (conversation n k tr).flatMap Prod.snd
  said : ∀ n k t o, .tracker n k t o ∈ tr.flatMap Prod.snd → ∃ a, s.asks n k = some a ∧ a.tracker = t ∧ o ∈ (conversation n k tr).flatMap Prod.snd

theorem NetAskInv.quiet (v : NetAskInv env tr s) (hl : ∀ n m, s.link n = .some m → s'.link n = .some m) (ha : s'.asks = s.asks) (he : ∀ n k ae, e ≠ .tracker n k ae)
    (ho : ∀ n k t o, .tracker n k t o ∉ out) : NetAskInv env (tr ++ [(e, out)]) s' := by
  refine ⟨?_, ?_, ?_⟩
  · intro n k h
    rw [conversation_kept (he n k)]
    rw [ha] at h
    exact v.fresh n k h
  · intro n k a h
    rw [conversation_kept (he n k)]
    rw [ha] at h
    obtain ⟨m, h1, h2⟩ := v.begun n k a h
    exact ⟨m, hl n m h1, h2⟩
  · intro n k t o h
    rw [conversation_kept (he n k), ha]
    rw [List.flatMap_append, List.mem_append] at h
    rcases h with h | h
    · exact v.said n k t o h
    · simp only [List.flatMap_cons, List.flatMap_nil, List.append_nil] at h
      exact absurd h (ho n k t o)

theorem askReturned_mem : ∀ {o : List AskOutput} {r}, askReturned o = some r → .result r ∈ o := by
  intro o
  induction o with
  | nil => intro r h; cases h
  | cons x l ih =>
    intro r h
    cases x <;> simp only [askReturned] at h <;> first
      | (cases h; exact List.mem_cons_self)
      | exact List.mem_cons_of_mem _ (ih h)

theorem NetAskInv.move (hp : ProgInv env ms tr ftr s) (v : NetAskInv env tr s) (hm : NetMove sha1 env resolve template s s' e out) :
    NetAskInv env (tr ++ [(e, out)]) s' := by
  have hkept : ∀ n m, s.link n = .some m → s'.link n = .some m := fun n m h => hp.kept hm h
  cases hm with
  | inner hi he _ => exact v.quiet hkept hi.same.2.2.2.2.1 he (by simp)
  | dht _ _ hs => subst hs; exact v.quiet hkept rfl (by simp) (by simp)
  | leftover _ _ _ _ _ hs => subst hs; exact v.quiet hkept rfl (by simp) (by simp)
  | peerBegins _ _ _ _ hs => subst hs; exact v.quiet hkept rfl (by simp) (by simp)
  | @trackerBegins n w k t q m hq hw hl hn hs =>
    have ha : s'.asks = setAt s.asks n (setAt (s.asks n) k (.some ⟨t, ⟨.init, .none⟩, .none⟩)) := by rw [hs]
    have other : ∀ n' k', ¬ (n' = n ∧ k' = k) → s'.asks n' k' = s.asks n' k' := by
      intro n' k' h
      rw [ha]
      by_cases h1 : n' = n
      · subst h1
        rw [setAt_same, setAt_other]
        exact fun h2 => h ⟨rfl, h2⟩
      · rw [setAt_other _ _ h1]
    have same : s'.asks n k = .some ⟨t, ⟨.init, .none⟩, .none⟩ := by rw [ha, setAt_same, setAt_same]
    obtain ⟨m', h1, h2⟩ := hp.trackerJobs hq
    refine ⟨?_, ?_, ?_⟩
    · intro n' k' h
      rw [conversation_kept (by simp)]
      by_cases hnk : n' = n ∧ k' = k
      · obtain ⟨rfl, rfl⟩ := hnk
        exact v.fresh _ _ hn
      · rw [other _ _ hnk] at h
        exact v.fresh _ _ h
    · intro n' k' a h
      rw [conversation_kept (by simp)]
      by_cases hnk : n' = n ∧ k' = k
      · obtain ⟨rfl, rfl⟩ := hnk
        rw [same] at h
        cases h
        refine ⟨m', hkept _ _ h1, h2.running hw, ?_, by simp⟩
        rw [v.fresh _ _ hn]
        exact .init
      · rw [other _ _ hnk] at h
        obtain ⟨m'', h3, h4⟩ := v.begun _ _ a h
        exact ⟨m'', hkept _ _ h3, h4⟩
    · intro n' k' t' o h
      rw [conversation_kept (by simp)]
      simp only [List.flatMap_append, List.flatMap_cons, List.flatMap_nil, List.append_nil] at h
      obtain ⟨a, h3, h4⟩ := v.said n' k' t' o h
      refine ⟨a, ?_, h4⟩
      rw [other]
      · exact h3
      · rintro ⟨rfl, rfl⟩
        rw [hn] at h3
        cases h3
  | @tracker n k ae a m r hak hl hstep hs =>
    have ha : s'.asks = setAt s.asks n (setAt (s.asks n) k (.some ⟨a.tracker, r.1, a.result.or (askReturned r.2)⟩)) := by rw [hs]
    have other : ∀ n' k', ¬ (n' = n ∧ k' = k) → s'.asks n' k' = s.asks n' k' := by
      intro n' k' h
      rw [ha]
      by_cases h1 : n' = n
      · subst h1
        rw [setAt_same, setAt_other]
        exact fun h2 => h ⟨rfl, h2⟩
      · rw [setAt_other _ _ h1]
    have same : s'.asks n k = .some ⟨a.tracker, r.1, a.result.or (askReturned r.2)⟩ := by rw [ha, setAt_same, setAt_same]
    have convo : conversation n k (tr ++ [(.tracker n k ae, r.2.map (.tracker n k a.tracker))]) = conversation n k tr ++ [(ae, r.2)] := by
      rw [conversation_snoc, askPart_same]
      rfl
    have keep : ∀ n' k', ¬ (n' = n ∧ k' = k) →
        conversation n' k' (tr ++ [(.tracker n k ae, r.2.map (.tracker n k a.tracker))]) = conversation n' k' tr := by
      intro n' k' h
      refine conversation_kept ?_
      intro ae' h'
      cases h'
      exact h ⟨rfl, rfl⟩
    obtain ⟨m', h1, h2, h3, h4⟩ := v.begun n k a hak
    rw [hl] at h1
    cases h1
    refine ⟨?_, ?_, ?_⟩
    · intro n' k' h
      by_cases hnk : n' = n ∧ k' = k
      · obtain ⟨rfl, rfl⟩ := hnk
        rw [same] at h
        cases h
      · rw [other _ _ hnk] at h
        rw [keep _ _ hnk]
        exact v.fresh _ _ h
    · intro n' k' a' h
      by_cases hnk : n' = n ∧ k' = k
      · obtain ⟨rfl, rfl⟩ := hnk
        rw [same] at h
        cases h
        rw [convo]
        refine ⟨m, hkept _ _ hl, h2, .step h3 hstep, ?_⟩
        intro r' hr'
        simp only [List.flatMap_append, List.mem_append, List.flatMap_cons, List.flatMap_nil, List.append_nil]
        rw [Option.or_eq_some_iff] at hr'
        rcases hr' with hr' | ⟨-, hr'⟩
        · exact .inl (h4 r' hr')
        · exact .inr (askReturned_mem hr')
      · rw [other _ _ hnk] at h
        rw [keep _ _ hnk]
        obtain ⟨m'', h5, h6⟩ := v.begun _ _ a' h
        exact ⟨m'', hkept _ _ h5, h6⟩
    · intro n' k' t' o h
      simp only [List.flatMap_append, List.flatMap_cons, List.flatMap_nil, List.append_nil, List.mem_append] at h
      by_cases hnk : n' = n ∧ k' = k
      · obtain ⟨rfl, rfl⟩ := hnk
        rw [convo]
        refine ⟨⟨a.tracker, r.1, a.result.or (askReturned r.2)⟩, same, ?_⟩
        simp only [List.flatMap_append, List.mem_append, List.flatMap_cons, List.flatMap_nil, List.append_nil]
        rcases h with h | h
        · obtain ⟨a', h5, h6, h7⟩ := v.said _ _ _ _ h
          rw [hak] at h5
          cases h5
          exact ⟨h6, .inl h7⟩
        · rw [List.mem_map] at h
          obtain ⟨o', h5, h6⟩ := h
          cases h6
          exact ⟨rfl, .inr h5⟩
      · rw [keep _ _ hnk, other _ _ hnk]
        rcases h with h | h
        · exact v.said _ _ _ _ h
        · rw [List.mem_map] at h
          obtain ⟨o', h5, h6⟩ := h
          cases h6
          exact absurd ⟨rfl, rfl⟩ hnk

/-- What is known of the tasks that ask peers. -/
structure TalkInv (sha1 : Bytes → Bytes) (env : GetEnv) (tr : NetTrace) (ftr : MagnetFleetTrace) (s : NetBatch) : Prop where
  talk : ∀ n k ls, s.talks n k = some ls → ∃ p, (contacts (alone n ftr))[k]? = some p ∧ Behaved tr p ls
  said : ∀ n p said, .peer n p said ∈ tr.flatMap Prod.snd → ∃ m ls, s.link n = some m ∧ p ∈ contacts (alone n ftr) ∧
    said = (infoGetterRun sha1 ls ⟨m.infoHash, env.localId, p.address.ip⟩ none env.cfg.general.encrypt p.requiresCrypto).1

theorem Spec.Behaved.mono {p : Peer} {ls : Nat → Link} (h : Behaved tr p ls) (x : NetEvent × List NetOutput) : Behaved (tr ++ [x]) p ls := by
  obtain ⟨n, w, said, h⟩ := h
  exact ⟨n, w, said, List.mem_append_left _ h⟩

theorem TalkInv.quiet (v : TalkInv sha1 env tr ftr s) {more : MagnetFleetTrace} (hl : ∀ n m, s.link n = some m → s'.link n = some m)
    (ht : s'.talks = s.talks) (ho : ∀ n p said, .peer n p said ∉ out) : TalkInv sha1 env (tr ++ [(e, out)]) (ftr ++ more) s' := by
  have happ : ∀ n, ∃ l, contacts (alone n (ftr ++ more)) = contacts (alone n ftr) ++ l := by
    intro n
    unfold contacts resolveObserved alone
    rw [List.filterMap_append, List.flatMap_append, List.filterMap_append]
    exact ⟨_, rfl⟩
  refine ⟨?_, ?_⟩
  · intro n k ls h
    rw [ht] at h
    obtain ⟨p, h1, h2⟩ := v.talk n k ls h
    refine ⟨p, ?_, h2.mono _⟩
    obtain ⟨l, hl'⟩ := happ n
    rw [hl', List.getElem?_append_left (List.getElem?_eq_some_iff.1 h1).1]
    exact h1
  · intro n p said h
    rw [List.flatMap_append, List.mem_append] at h
    rcases h with h | h
    · obtain ⟨m, ls, h1, h2, h3⟩ := v.said n p said h
      refine ⟨m, ls, hl n m h1, ?_, h3⟩
      obtain ⟨l, hl'⟩ := happ n
      rw [hl']
      exact List.mem_append_left _ h2
    · simp only [List.flatMap_cons, List.flatMap_nil, List.append_nil] at h
      exact absurd h (ho n p said)

theorem TalkInv.move (hp : ProgInv env ms tr ftr s) (v : TalkInv sha1 env tr ftr s) (hm : NetMove sha1 env resolve template s s' e out)
    (more : MagnetFleetTrace) : TalkInv sha1 env (tr ++ [(e, out)]) (ftr ++ more) s' := by
  have hkept : ∀ n m, s.link n = some m → s'.link n = some m := fun n m h => hp.kept hm h
  cases hm with
  | inner hi he _ => exact v.quiet hkept hi.same.2.2.2.2.2 (by simp)
  | dht _ _ hs => subst hs; exact v.quiet hkept rfl (by simp)
  | leftover _ _ _ _ _ hs => subst hs; exact v.quiet hkept rfl (by simp)
  | trackerBegins _ _ _ _ hs => subst hs; exact v.quiet hkept rfl (by simp)
  | tracker _ _ _ hs => subst hs; exact v.quiet hkept rfl (by simp)
  | @peerBegins n w ls r k p m hr hw hl hn hs =>
    obtain ⟨m', h1, -, h3⟩ := hp.working n r hr
    rw [hl] at h1
    cases h1
    have hpk : (contacts (alone n ftr))[k]? = some p := h3.1.running hw
    have happ : ∀ n, ∃ l, contacts (alone n (ftr ++ more)) = contacts (alone n ftr) ++ l := by
      intro n
      unfold contacts resolveObserved alone
      rw [List.filterMap_append, List.flatMap_append, List.filterMap_append]
      exact ⟨_, rfl⟩
    have grow : ∀ {n k : Nat} {p : Peer}, (contacts (alone n ftr))[k]? = some p → (contacts (alone n (ftr ++ more)))[k]? = some p := by
      intro n k p h
      obtain ⟨l, hl'⟩ := happ n
      rw [hl', List.getElem?_append_left (List.getElem?_eq_some_iff.1 h).1]
      exact h
    have ht : s'.talks = setAt s.talks n (setAt (s.talks n) k (some ls)) := by rw [hs]
    refine ⟨?_, ?_⟩
    · intro n' k' ls' h
      rw [ht] at h
      have old : s.talks n' k' = some ls' → ∃ p', (contacts (alone n' (ftr ++ more)))[k']? = some p' ∧ Behaved (tr ++ [(.peerBegins n w ls,
          [.peer n p (infoGetterRun sha1 ls ⟨m.infoHash, env.localId, p.address.ip⟩ none env.cfg.general.encrypt p.requiresCrypto).1])]) p' ls' := by
        intro h
        obtain ⟨p', h4, h5⟩ := v.talk n' k' ls' h
        exact ⟨p', grow h4, h5.mono _⟩
      by_cases h1 : n' = n
      · subst h1
        rw [setAt_same] at h
        by_cases h2 : k' = k
        · subst h2
          rw [setAt_same] at h
          cases h
          exact ⟨p, grow hpk, n', w, _, List.mem_append_right _ (List.mem_singleton.2 rfl)⟩
        · rw [setAt_other _ _ h2] at h
          exact old h
      · rw [setAt_other _ _ h1] at h
        exact old h
    · intro n' p' said h
      simp only [List.flatMap_append, List.flatMap_cons, List.flatMap_nil, List.append_nil, List.mem_append, List.mem_singleton] at h
      have mem : ∀ {n k : Nat} {p : Peer}, (contacts (alone n ftr))[k]? = some p → p ∈ contacts (alone n (ftr ++ more)) := fun h => List.mem_of_getElem? (grow h)
      rcases h with h | h
      · obtain ⟨m', ls', h4, h5, h6⟩ := v.said n' p' said h
        obtain ⟨i, hi⟩ := List.getElem?_of_mem h5
        exact ⟨m', ls', hkept _ _ h4, mem hi, h6⟩
      · cases h
        exact ⟨m, ls, hkept _ _ hl, mem hpk, rfl⟩

end

end Demag
