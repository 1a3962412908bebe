import Verif.Lemmas.FormParse
import Verif.Lemmas.HttpFields
import Verif.Lemmas.Emit
import Verif.Props.InfoHash
import Verif.Props.TrackerUrl

/-!
# C18, C19: magnet links and files of magnet links
-/

namespace Demag.Props

open Demag Spec

/-! ### C18 -/

/-- **C18.** The parameters of the link are the names and values in its query. -/
theorem queryPairs_spec (lossy : Bytes → Text) (u : Url) : u.queryPairs lossy = textPairs lossy (u.query.getD []) :=
  formParse_spec lossy _

theorem stripPrefix_iff (p s r : Text) : stripPrefix p s = some r ↔ s = p ++ r := by
  unfold stripPrefix
  constructor
  · intro h
    split at h
    · rename_i hp
      rw [List.isPrefixOf_iff_prefix] at hp
      obtain ⟨x, rfl⟩ := hp
      simp at h; rw [h]
    · cases h
  · rintro rfl
    rw [if_pos (by rw [List.isPrefixOf_iff_prefix]; exact ⟨r, rfl⟩)]
    simp

/-- **C18.** The parameter `xt` must be `urn:btih:` and an info hash. -/
theorem parseXt_spec (v : Text) (h : InfoHash) : parseXt v = .ok h ↔ DenotesXt v h := by
  have e0 : "urn:btih:".toList = "urn:".toList ++ "btih:".toList := rfl
  unfold parseXt DenotesXt
  constructor
  · intro hx
    split at hx
    · cases hx
    · rename_i s hs
      split at hx
      · cases hx
      · rename_i s2 hs2
        rw [stripPrefix_iff] at hs hs2
        subst hs2
        refine ⟨s2, by rw [hs, e0, List.append_assoc], ?_⟩
        split at hx
        · rename_i k hk
          simp only [Except.ok.injEq] at hx
          subst hx
          exact (infoHash_fromStr_spec _ _).1 hk
        · cases hx
  · rintro ⟨s, rfl, hs⟩
    rw [(stripPrefix_iff _ _ ("btih:".toList ++ s)).2 (by rw [e0, List.append_assoc])]
    simp only
    rw [(stripPrefix_iff _ _ s).2 rfl]
    simp only
    rw [(infoHash_fromStr_spec _ _).2 hs]

/-- **C18.** Which error is reported for a wrong `xt`: that it is not a URN, that it is not in the namespace `btih`, or what is wrong with
the info hash. -/
theorem parseXt_error (v : Text) (x : XtError) : parseXt v = .error x ↔
    ((¬ ∃ r, v = "urn:".toList ++ r) ∧ x = .notUrn) ∨
    ((∃ r, v = "urn:".toList ++ r) ∧ (¬ ∃ r, v = "urn:btih:".toList ++ r) ∧ x = .notBtih) ∨
    ∃ r e, v = "urn:btih:".toList ++ r ∧ InfoHash.fromStr (utf8 r) = .error e ∧ x = .infoHash e := by
  have e0 : "urn:btih:".toList = "urn:".toList ++ "btih:".toList := rfl
  unfold parseXt
  cases h1 : stripPrefix "urn:".toList v with
  | none =>
    have hn : ¬ ∃ r, v = "urn:".toList ++ r := fun ⟨r, hr⟩ => by rw [(stripPrefix_iff _ _ r).2 hr] at h1; cases h1
    have hn2 : ∀ r, v ≠ "urn:btih:".toList ++ r := fun r hr => hn ⟨_, by rw [hr, e0, List.append_assoc]⟩
    constructor
    · intro h; cases h; exact .inl ⟨hn, rfl⟩
    · rintro (⟨-, rfl⟩ | ⟨h, -⟩ | ⟨r, e, h, -⟩)
      · rfl
      · exact absurd h hn
      · exact absurd h (hn2 r)
  | some s =>
    rw [stripPrefix_iff] at h1
    subst h1
    have hy : ∃ r, "urn:".toList ++ s = "urn:".toList ++ r := ⟨s, rfl⟩
    cases h2 : stripPrefix "btih:".toList s with
    | none =>
      have hn : ¬ ∃ r, "urn:".toList ++ s = "urn:btih:".toList ++ r := fun ⟨r, hr⟩ => by
        rw [e0, List.append_assoc, List.append_cancel_left_eq] at hr
        rw [(stripPrefix_iff _ _ r).2 hr] at h2; cases h2
      simp only [h2]
      constructor
      · intro h; cases h; exact .inr (.inl ⟨hy, hn, rfl⟩)
      · rintro (⟨h, -⟩ | ⟨-, -, rfl⟩ | ⟨r, e, h, -⟩)
        · exact absurd hy h
        · rfl
        · exact absurd ⟨r, h⟩ hn
    | some s2 =>
      simp only [h2]
      rw [stripPrefix_iff] at h2
      subst h2
      have hy2 : ∃ r, "urn:".toList ++ ("btih:".toList ++ s2) = "urn:btih:".toList ++ r := ⟨s2, by rw [e0, List.append_assoc]⟩
      constructor
      · intro h
        cases h3 : InfoHash.fromStr (utf8 s2) with
        | ok k => rw [h3] at h; cases h
        | error e => rw [h3] at h; cases h; exact .inr (.inr ⟨s2, e, by rw [e0, List.append_assoc], h3, rfl⟩)
      · rintro (⟨h, -⟩ | ⟨-, h, -⟩ | ⟨r, e, h, h3, rfl⟩)
        · exact absurd hy h
        · exact absurd hy2 h
        · rw [e0, List.append_assoc, List.append_cancel_left_eq, List.append_cancel_left_eq] at h
          rw [h, h3]

example : parseXt "urn:sha1:YNCKHTQCWBTRNJIV4WNAE52SJUQCZO5C".toList = .error .notBtih := by
  rw [parseXt_error]
  exact .inr (.inl ⟨⟨"sha1:YNCKHTQCWBTRNJIV4WNAE52SJUQCZO5C".toList, rfl⟩, (fun ⟨r, h⟩ => by simp at h), rfl⟩)

theorem valuesOf_cons (k : String) (kv : Text × Text) (ps : List (Text × Text)) :
    valuesOf k (kv :: ps) = (if kv.1 = k.toList then [kv.2] else []) ++ valuesOf k ps := by
  unfold valuesOf
  rw [List.filter_cons]
  by_cases h : kv.1 = k.toList
  · rw [if_pos (by simpa using h), if_pos h]; rfl
  · rw [if_neg (by simpa using h), if_neg h]; rfl

theorem xt_ne_dn : "xt".toList ≠ "dn".toList := by decide
theorem xt_ne_tr : "xt".toList ≠ "tr".toList := by decide
theorem dn_ne_tr : "dn".toList ≠ "tr".toList := by decide

theorem fold_cons (parseUrl : Text → Option Url) (s : MagnetFields) (kv : Text × Text) (ps : List (Text × Text)) :
    (kv :: ps).foldlM (MagnetFields.readPair parseUrl) s =
      match MagnetFields.readPair parseUrl s kv with
      | .ok s' => ps.foldlM (MagnetFields.readPair parseUrl) s'
      | .error e => .error e := by
  rw [List.foldlM_cons]
  cases MagnetFields.readPair parseUrl s kv <;> rfl

/-- What one parameter may do. -/
theorem readPair_cases (parseUrl : Text → Option Url) (s : MagnetFields) (k v : Text) :
    (k = "xt".toList ∧ ∃ h, s.infoHash = none ∧ parseXt v = .ok h ∧
      MagnetFields.readPair parseUrl s (k, v) = .ok { s with infoHash := some h }) ∨
    (k = "xt".toList ∧ ∃ e, s.infoHash = none ∧ parseXt v = .error e ∧
      MagnetFields.readPair parseUrl s (k, v) = .error (.invalidXt e)) ∨
    (k = "xt".toList ∧ s.infoHash ≠ none ∧ MagnetFields.readPair parseUrl s (k, v) = .error .multipleXt) ∨
    (k = "dn".toList ∧ MagnetFields.readPair parseUrl s (k, v) = .ok { s with dn := some v }) ∨
    (k = "tr".toList ∧ ∃ t, Tracker.parse parseUrl v = .ok t ∧
      MagnetFields.readPair parseUrl s (k, v) = .ok { s with trackers := s.trackers ++ [t] }) ∨
    (k = "tr".toList ∧ ∃ e, Tracker.parse parseUrl v = .error e ∧
      MagnetFields.readPair parseUrl s (k, v) = .error (.invalidTracker e)) ∨
    (k ≠ "xt".toList ∧ k ≠ "dn".toList ∧ k ≠ "tr".toList ∧ MagnetFields.readPair parseUrl s (k, v) = .ok s) := by
  unfold MagnetFields.readPair
  by_cases h1 : k = "xt".toList
  · rw [if_pos h1]
    cases hi : s.infoHash with
    | none =>
      cases hx : parseXt v with
      | ok h => exact .inl ⟨h1, h, rfl, rfl, rfl⟩
      | error e => exact .inr (.inl ⟨h1, e, rfl, rfl, rfl⟩)
    | some h => exact .inr (.inr (.inl ⟨h1, (fun e => by cases e), rfl⟩))
  · rw [if_neg h1]
    by_cases h2 : k = "dn".toList
    · rw [if_pos h2]
      exact .inr (.inr (.inr (.inl ⟨h2, rfl⟩)))
    · rw [if_neg h2]
      by_cases h3 : k = "tr".toList
      · rw [if_pos h3]
        cases hx : Tracker.parse parseUrl v with
        | ok t => exact .inr (.inr (.inr (.inr (.inl ⟨h3, t, rfl, rfl⟩))))
        | error e => exact .inr (.inr (.inr (.inr (.inr (.inl ⟨h3, e, rfl, rfl⟩)))))
      · rw [if_neg h3]
        exact .inr (.inr (.inr (.inr (.inr (.inr ⟨h1, h2, h3, rfl⟩)))))

/-- The parameters read without an error, from any state. -/
structure ReadFrom (parseUrl : Text → Option Url) (s : MagnetFields) (ps : List (Text × Text)) (s' : MagnetFields) : Prop where
  xt : (valuesOf "xt" ps = [] ∧ s'.infoHash = s.infoHash) ∨
    (s.infoHash = none ∧ ∃ v h, valuesOf "xt" ps = [v] ∧ parseXt v = .ok h ∧ s'.infoHash = some h)
  dn : s'.dn = ((valuesOf "dn" ps).getLast?).or s.dn
  tr : ∃ ts, s'.trackers = s.trackers ++ ts ∧ List.Forall₂ (fun v t => Tracker.parse parseUrl v = .ok t) (valuesOf "tr" ps) ts

theorem getLast?_cons_or {α : Type} (x : α) (l : List α) (o : Option α) : ((x :: l).getLast?).or o = (l.getLast?).or (some x) := by
  cases l with
  | nil => rfl
  | cons y l =>
    rw [List.getLast?_cons_cons]
    cases h : (y :: l).getLast? with
    | none => simp at h
    | some z => rfl

theorem fold_ok (parseUrl : Text → Option Url) (ps : List (Text × Text)) (s s' : MagnetFields) :
    ps.foldlM (MagnetFields.readPair parseUrl) s = .ok s' ↔ ReadFrom parseUrl s ps s' := by
  induction ps generalizing s with
  | nil =>
    rw [List.foldlM_nil]
    constructor
    · intro h
      cases h
      exact ⟨.inl ⟨rfl, rfl⟩, rfl, [], by simp, .nil⟩
    · rintro ⟨hx, hd, ts, ht, hf⟩
      have hx' : s'.infoHash = s.infoHash := by
        rcases hx with h | ⟨-, v, h, hv, -⟩
        · exact h.2
        · cases hv
      have hd' : s'.dn = s.dn := hd
      cases hf
      rw [List.append_nil] at ht
      obtain ⟨a, b, c⟩ := s
      obtain ⟨a', b', c'⟩ := s'
      simp only at hx' hd' ht
      subst hx' hd' ht
      rfl
  | cons kv ps ih =>
    obtain ⟨k, v⟩ := kv
    rw [fold_cons]
    have n1 := xt_ne_dn
    have n2 := xt_ne_tr
    have n3 := dn_ne_tr
    rcases readPair_cases parseUrl s k v with ⟨hk, h, hi, hx, hr⟩ | ⟨hk, e, hi, hx, hr⟩ | ⟨hk, hi, hr⟩ | ⟨hk, hr⟩ |
      ⟨hk, t, hx, hr⟩ | ⟨hk, e, hx, hr⟩ | ⟨h1, h2, h3, hr⟩
    · rw [hr]
      simp only [ih]
      constructor
      · rintro ⟨a, b, c⟩
        refine ⟨?_, ?_, ?_⟩
        · refine .inr ⟨hi, v, h, ?_, hx, ?_⟩
          · rw [valuesOf_cons, if_pos hk]
            rcases a with a | a
            · rw [a.1]; rfl
            · exact absurd a.1 (by simp)
          · rcases a with a | a
            · exact a.2
            · exact absurd a.1 (by simp)
        · rw [valuesOf_cons, if_neg (by rw [hk]; exact n1)]; exact b
        · rw [valuesOf_cons, if_neg (by rw [hk]; exact n2)]; exact c
      · rintro ⟨a, b, c⟩
        rw [valuesOf_cons, if_pos hk] at a
        rw [valuesOf_cons, if_neg (by rw [hk]; exact n1)] at b
        rw [valuesOf_cons, if_neg (by rw [hk]; exact n2)] at c
        rcases a with ⟨a, -⟩ | ⟨-, v', h', a, a2, a3⟩
        · cases a
        · simp only [List.singleton_append, List.cons.injEq] at a
          obtain ⟨rfl, a⟩ := a
          rw [hx] at a2
          cases a2
          exact ⟨.inl ⟨a, a3⟩, b, c⟩
    · rw [hr]
      simp only [reduceCtorEq, false_iff]
      rintro ⟨a, -, -⟩
      rw [valuesOf_cons, if_pos hk] at a
      rcases a with ⟨a, -⟩ | ⟨-, v', h', a, a2, a3⟩
      · cases a
      · simp only [List.singleton_append, List.cons.injEq] at a
        obtain ⟨rfl, a⟩ := a
        rw [hx] at a2
        cases a2
    · rw [hr]
      simp only [reduceCtorEq, false_iff]
      rintro ⟨a, -, -⟩
      rw [valuesOf_cons, if_pos hk] at a
      rcases a with ⟨a, -⟩ | ⟨a, -⟩
      · cases a
      · exact hi a
    · rw [hr]
      simp only [ih]
      have hk1 : ¬ k = "xt".toList := by rw [hk]; exact n1.symm
      have hk2 : ¬ k = "tr".toList := by rw [hk]; exact n3
      constructor
      · rintro ⟨a, b, c⟩
        refine ⟨?_, ?_, ?_⟩
        · rw [valuesOf_cons, if_neg hk1]; exact a
        · rw [valuesOf_cons, if_pos hk, List.singleton_append, getLast?_cons_or]; exact b
        · rw [valuesOf_cons, if_neg hk2]; exact c
      · rintro ⟨a, b, c⟩
        rw [valuesOf_cons, if_neg hk1] at a
        rw [valuesOf_cons, if_pos hk, List.singleton_append, getLast?_cons_or] at b
        rw [valuesOf_cons, if_neg hk2] at c
        exact ⟨a, b, c⟩
    · rw [hr]
      simp only [ih]
      have hk1 : ¬ k = "xt".toList := by rw [hk]; exact n2.symm
      have hk2 : ¬ k = "dn".toList := by rw [hk]; exact n3.symm
      constructor
      · rintro ⟨a, b, ts, c, d⟩
        refine ⟨?_, ?_, ?_⟩
        · rw [valuesOf_cons, if_neg hk1]; exact a
        · rw [valuesOf_cons, if_neg hk2]; exact b
        · rw [valuesOf_cons, if_pos hk]
          exact ⟨t :: ts, by rw [c]; simp, .cons hx d⟩
      · rintro ⟨a, b, ts, c, d⟩
        rw [valuesOf_cons, if_neg hk1] at a
        rw [valuesOf_cons, if_neg hk2] at b
        rw [valuesOf_cons, if_pos hk, List.singleton_append] at d
        cases d with
        | cons hd d =>
          rw [hx] at hd
          cases hd
          exact ⟨a, b, _, by rw [c]; simp, d⟩
    · rw [hr]
      simp only [reduceCtorEq, false_iff]
      rintro ⟨-, -, ts, -, d⟩
      rw [valuesOf_cons, if_pos hk, List.singleton_append] at d
      cases d with
      | cons hd d => rw [hx] at hd; cases hd
    · rw [hr]
      simp only [ih]
      constructor
      · rintro ⟨a, b, c⟩
        refine ⟨?_, ?_, ?_⟩
        · rw [valuesOf_cons, if_neg h1]; exact a
        · rw [valuesOf_cons, if_neg h2]; exact b
        · rw [valuesOf_cons, if_neg h3]; exact c
      · rintro ⟨a, b, c⟩
        rw [valuesOf_cons, if_neg h1] at a
        rw [valuesOf_cons, if_neg h2] at b
        rw [valuesOf_cons, if_neg h3] at c
        exact ⟨a, b, c⟩

theorem magnetOfPairs_ok (parseUrl : Text → Option Url) (ps : List (Text × Text)) (m : Magnet) :
    magnetOfPairs parseUrl ps = .ok m ↔ DescribesMagnet parseUrl ps m := by
  unfold magnetOfPairs
  constructor
  · intro h
    split at h
    · cases h
    · rename_i s hs
      rw [fold_ok] at hs
      obtain ⟨a, b, ts, c, d⟩ := hs
      split at h
      · cases h
      · rename_i ih hih
        cases h
        refine ⟨?_, ?_, ?_⟩
        · rcases a with ⟨-, a⟩ | ⟨-, v, h, a, a2, a3⟩
          · rw [hih] at a; cases a
          · rw [a3] at hih
            cases hih
            exact ⟨v, a, (parseXt_spec _ _).1 a2⟩
        · simp only [b]
          show Option.or _ none = _
          rw [Option.or_none]
        · rw [show s.trackers = ts by rw [c]; rfl]; exact d
  · rintro ⟨⟨v, hv, hx⟩, hd, ht⟩
    have : ps.foldlM (MagnetFields.readPair parseUrl) {} = .ok ⟨some m.infoHash, m.displayName, m.trackers⟩ := by
      rw [fold_ok]
      refine ⟨.inr ⟨rfl, v, m.infoHash, hv, (parseXt_spec _ _).2 hx, rfl⟩, ?_, m.trackers, rfl, ht⟩
      rw [hd]
      show _ = Option.or _ none
      rw [Option.or_none]
    rw [this]

/-- **C18.** A text is accepted as a magnet link iff it is a URL with the scheme `magnet` whose parameters describe a magnet:
exactly one `xt`, which is `urn:btih:` and an info hash; the last `dn` is the name; all `tr` are URLs of trackers, in order.
Everything else is ignored. -/
theorem magnet_ok (parseUrl : Text → Option Url) (lossy : Bytes → Text) (s : Text) (m : Magnet) :
    Magnet.parse parseUrl lossy s = .ok m ↔ ∃ u, parseUrl s = some u ∧ u.scheme = "magnet".toList ∧
      DescribesMagnet parseUrl (textPairs lossy (u.query.getD [])) m := by
  unfold Magnet.parse
  cases parseUrl s with
  | none => simp
  | some u =>
    simp only [Option.some.injEq, queryPairs_spec]
    by_cases hs : u.scheme = "magnet".toList
    · rw [if_neg (fun h => h hs), magnetOfPairs_ok]
      exact ⟨fun h => ⟨u, rfl, hs, h⟩, by rintro ⟨u', rfl, -, h⟩; exact h⟩
    · rw [if_pos hs]
      simp only [reduceCtorEq, false_iff]
      rintro ⟨u', rfl, h, -⟩
      exact hs h

/-- **C18.** The position of the parameters relative to each other does not matter, only the values of each one. -/
theorem magnet_order (parseUrl : Text → Option Url) (ps qs : List (Text × Text)) (m : Magnet)
    (h1 : valuesOf "xt" ps = valuesOf "xt" qs) (h2 : valuesOf "dn" ps = valuesOf "dn" qs)
    (h3 : valuesOf "tr" ps = valuesOf "tr" qs) :
    magnetOfPairs parseUrl ps = .ok m ↔ magnetOfPairs parseUrl qs = .ok m := by
  rw [magnetOfPairs_ok, magnetOfPairs_ok]
  constructor
  · rintro ⟨a, b, c⟩; exact ⟨h1 ▸ a, h2 ▸ b, h3 ▸ c⟩
  · rintro ⟨a, b, c⟩; exact ⟨h1 ▸ a, h2 ▸ b, h3 ▸ c⟩

/-- The first parameter at which reading stops. -/
theorem fold_error (parseUrl : Text → Option Url) (ps : List (Text × Text)) (s : MagnetFields) (e : MagnetError) :
    ps.foldlM (MagnetFields.readPair parseUrl) s = .error e ↔
      ∃ pre kv post s', ps = pre ++ kv :: post ∧ ReadFrom parseUrl s pre s' ∧ MagnetFields.readPair parseUrl s' kv = .error e := by
  induction ps generalizing s with
  | nil =>
    rw [List.foldlM_nil]
    constructor
    · intro h; cases h
    · rintro ⟨pre, kv, post, s', h, -⟩; simp at h
  | cons kv ps ih =>
    rw [fold_cons]
    constructor
    · intro h
      cases hr : MagnetFields.readPair parseUrl s kv with
      | error e' =>
        rw [hr] at h
        cases h
        exact ⟨[], kv, ps, s, rfl, (fold_ok _ _ _ _).1 rfl, hr⟩
      | ok s1 =>
        rw [hr] at h
        obtain ⟨pre, kv', post, s', rfl, h2, h3⟩ := (ih s1).1 h
        refine ⟨kv :: pre, kv', post, s', rfl, ?_, h3⟩
        rw [← fold_ok, fold_cons, hr]
        exact (fold_ok _ _ _ _).2 h2
    · rintro ⟨pre, kv', post, s', h, h2, h3⟩
      cases pre with
      | nil =>
        cases h
        rw [← fold_ok, List.foldlM_nil] at h2
        cases h2
        rw [h3]
      | cons x pre =>
        cases h
        rw [← fold_ok, fold_cons] at h2
        cases hr : MagnetFields.readPair parseUrl s kv with
        | error e' => rw [hr] at h2; cases h2
        | ok s1 =>
          rw [hr] at h2
          simp only at h2 ⊢
          exact (ih s1).2 ⟨pre, kv', post, s', rfl, (fold_ok _ _ _ _).1 h2, h3⟩

/-- All trackers named by the parameters are acceptable. -/
def TrackersOk (parseUrl : Text → Option Url) (ps : List (Text × Text)) : Prop :=
  ∀ v ∈ valuesOf "tr" ps, ∃ t, Tracker.parse parseUrl v = .ok t

theorem trackersOk_iff (parseUrl : Text → Option Url) (ps : List (Text × Text)) :
    TrackersOk parseUrl ps ↔ ∃ ts, List.Forall₂ (fun v t => Tracker.parse parseUrl v = .ok t) (valuesOf "tr" ps) ts := by
  unfold TrackersOk
  generalize valuesOf "tr" ps = vs
  induction vs with
  | nil => exact ⟨fun _ => ⟨[], .nil⟩, fun _ v hv => by cases hv⟩
  | cons v vs ih =>
    constructor
    · intro h
      obtain ⟨t, ht⟩ := h v (by simp)
      obtain ⟨ts, hts⟩ := ih.1 (fun w hw => h w (by simp [hw]))
      exact ⟨t :: ts, .cons ht hts⟩
    · rintro ⟨ts, h⟩ w hw
      cases h with
      | cons h1 h2 =>
        rcases List.mem_cons.1 hw with rfl | hw
        · exact ⟨_, h1⟩
        · exact ih.2 ⟨_, h2⟩ w hw

theorem readFrom_exists (parseUrl : Text → Option Url) (ps : List (Text × Text)) (o : Option InfoHash) :
    (∃ s', ReadFrom parseUrl {} ps s' ∧ s'.infoHash = o) ↔
      TrackersOk parseUrl ps ∧ ((o = none ∧ valuesOf "xt" ps = []) ∨ ∃ v h, o = some h ∧ valuesOf "xt" ps = [v] ∧ DenotesXt v h) := by
  rw [trackersOk_iff]
  constructor
  · rintro ⟨s', ⟨a, b, ts, c, d⟩, rfl⟩
    refine ⟨⟨ts, d⟩, ?_⟩
    rcases a with ⟨a, a2⟩ | ⟨-, v, h, a, a2, a3⟩
    · exact .inl ⟨a2, a⟩
    · exact .inr ⟨v, h, a3, a, (parseXt_spec _ _).1 a2⟩
  · rintro ⟨⟨ts, d⟩, h⟩
    refine ⟨⟨o, (valuesOf "dn" ps).getLast?, ts⟩, ⟨?_, ?_, ts, rfl, d⟩, rfl⟩
    · rcases h with ⟨rfl, h⟩ | ⟨v, h, rfl, hv, hx⟩
      · exact .inl ⟨h, rfl⟩
      · exact .inr ⟨rfl, v, h, hv, (parseXt_spec _ _).2 hx, rfl⟩
    · show _ = Option.or _ none
      rw [Option.or_none]

/-- **C18.** Which error is reported: that of the first parameter that is wrong, where a second `xt` is wrong whatever its
value; if no parameter is wrong, that there is no `xt`. -/
theorem magnet_error (parseUrl : Text → Option Url) (ps : List (Text × Text)) (e : MagnetError) :
    magnetOfPairs parseUrl ps = .error e ↔
      (e = .noXt ∧ valuesOf "xt" ps = [] ∧ TrackersOk parseUrl ps) ∨
      ∃ pre k v post, ps = pre ++ (k, v) :: post ∧ TrackersOk parseUrl pre ∧
        ((k = "xt".toList ∧ valuesOf "xt" pre = [] ∧ ∃ x, parseXt v = .error x ∧ e = .invalidXt x) ∨
         (k = "xt".toList ∧ (∃ w h, valuesOf "xt" pre = [w] ∧ DenotesXt w h) ∧ e = .multipleXt) ∨
         (k = "tr".toList ∧ (valuesOf "xt" pre = [] ∨ ∃ w h, valuesOf "xt" pre = [w] ∧ DenotesXt w h) ∧
           ∃ x, Tracker.parse parseUrl v = .error x ∧ e = .invalidTracker x)) := by
  unfold magnetOfPairs
  have n1 := xt_ne_dn
  have n2 := xt_ne_tr
  have n3 := dn_ne_tr
  cases hf : ps.foldlM (MagnetFields.readPair parseUrl) {} with
  | ok s =>
    have hnoerr : ∀ e, ps.foldlM (MagnetFields.readPair parseUrl) {} ≠ .error e := by rw [hf]; intro e h; cases h
    have hr := (fold_ok _ _ _ _).1 hf
    simp only
    constructor
    · intro h
      cases hs : s.infoHash with
      | some x => rw [hs] at h; cases h
      | none =>
        rw [hs] at h
        cases h
        have := (readFrom_exists parseUrl ps none).1 ⟨s, hr, hs⟩
        refine .inl ⟨rfl, ?_, this.1⟩
        rcases this.2 with h | ⟨v, h, h2, -⟩
        · exact h.2
        · cases h2
    · rintro (⟨rfl, h1, h2⟩ | ⟨pre, k, v, post, rfl, h1, h2⟩)
      · have : s.infoHash = none := by
          rcases hr.xt with ⟨-, h⟩ | ⟨-, v, h, h3, -⟩
          · exact h
          · rw [h1] at h3; cases h3
        rw [this]
      · exfalso
        rcases h2 with ⟨hk, hv, x, hx, -⟩ | ⟨hk, ⟨w, h, hv, hx⟩, -⟩ | ⟨hk, hv, x, hx, -⟩
        · obtain ⟨s', hs, hi⟩ := (readFrom_exists parseUrl pre none).2 ⟨h1, .inl ⟨rfl, hv⟩⟩
          refine hnoerr (.invalidXt x) ((fold_error _ _ _ _).2 ⟨pre, (k, v), post, s', rfl, hs, ?_⟩)
          simp only [MagnetFields.readPair, hi, if_pos hk, hx]
        · obtain ⟨s', hs, hi⟩ := (readFrom_exists parseUrl pre (some h)).2 ⟨h1, .inr ⟨w, h, rfl, hv, hx⟩⟩
          refine hnoerr .multipleXt ((fold_error _ _ _ _).2 ⟨pre, (k, v), post, s', rfl, hs, ?_⟩)
          simp only [MagnetFields.readPair, hi, if_pos hk]
        · have : ∃ s', ReadFrom parseUrl {} pre s' := by
            rcases hv with hv | ⟨w, h, hv, hd⟩
            · obtain ⟨s', hs, -⟩ := (readFrom_exists parseUrl pre none).2 ⟨h1, .inl ⟨rfl, hv⟩⟩
              exact ⟨s', hs⟩
            · obtain ⟨s', hs, -⟩ := (readFrom_exists parseUrl pre (some h)).2 ⟨h1, .inr ⟨w, h, rfl, hv, hd⟩⟩
              exact ⟨s', hs⟩
          obtain ⟨s', hs⟩ := this
          refine hnoerr (.invalidTracker x) ((fold_error _ _ _ _).2 ⟨pre, (k, v), post, s', rfl, hs, ?_⟩)
          simp only [MagnetFields.readPair]
          rw [if_neg (by rw [hk]; exact n2.symm), if_neg (by rw [hk]; exact n3.symm), if_pos hk, hx]
  | error e' =>
    have hthis : ∀ e'', ps.foldlM (MagnetFields.readPair parseUrl) {} = .error e'' → e'' = e' := by
      rw [hf]; intro e'' h; cases h; rfl
    simp only [Except.error.injEq]
    constructor
    · rintro rfl
      right
      obtain ⟨pre, ⟨k, v⟩, post, s', h1, h2, h3⟩ := (fold_error _ _ _ _).1 hf
      have hre := (readFrom_exists parseUrl pre s'.infoHash).1 ⟨s', h2, rfl⟩
      refine ⟨pre, k, v, post, h1, hre.1, ?_⟩
      rcases readPair_cases parseUrl s' k v with ⟨hk, h, hi, hx, hr⟩ | ⟨hk, e, hi, hx, hr⟩ | ⟨hk, hi, hr⟩ | ⟨hk, hr⟩ |
        ⟨hk, t, hx, hr⟩ | ⟨hk, e, hx, hr⟩ | ⟨-, -, -, hr⟩
      · rw [hr] at h3; cases h3
      · rw [hr] at h3; cases h3
        refine .inl ⟨hk, ?_, e, hx, rfl⟩
        rcases hre.2 with h | ⟨v, h, h2, -⟩
        · exact h.2
        · rw [hi] at h2; cases h2
      · rw [hr] at h3; cases h3
        refine .inr (.inl ⟨hk, ?_, rfl⟩)
        rcases hre.2 with h | ⟨v, h, h2, h3⟩
        · exact absurd h.1 hi
        · exact ⟨v, h, h3⟩
      · rw [hr] at h3; cases h3
      · rw [hr] at h3; cases h3
      · rw [hr] at h3; cases h3
        refine .inr (.inr ⟨hk, ?_, e, hx, rfl⟩)
        rcases hre.2 with h | ⟨v, h, h2, h3⟩
        · exact .inl h.2
        · exact .inr ⟨v, h, h3⟩
      · rw [hr] at h3; cases h3
    · rintro (⟨rfl, h1, h2⟩ | ⟨pre, k, v, post, rfl, h1, h2⟩)
      · exfalso
        obtain ⟨s', hs, -⟩ := (readFrom_exists parseUrl ps none).2 ⟨h2, .inl ⟨rfl, h1⟩⟩
        rw [← fold_ok, hf] at hs
        cases hs
      · symm
        rcases h2 with ⟨hk, hv, x, hx, rfl⟩ | ⟨hk, ⟨w, h, hv, hx⟩, rfl⟩ | ⟨hk, hv, x, hx, rfl⟩
        · obtain ⟨s', hs, hi⟩ := (readFrom_exists parseUrl pre none).2 ⟨h1, .inl ⟨rfl, hv⟩⟩
          refine hthis (.invalidXt x) ((fold_error _ _ _ _).2 ⟨pre, (k, v), post, s', rfl, hs, ?_⟩)
          simp only [MagnetFields.readPair, hi, if_pos hk, hx]
        · obtain ⟨s', hs, hi⟩ := (readFrom_exists parseUrl pre (some h)).2 ⟨h1, .inr ⟨w, h, rfl, hv, hx⟩⟩
          refine hthis .multipleXt ((fold_error _ _ _ _).2 ⟨pre, (k, v), post, s', rfl, hs, ?_⟩)
          simp only [MagnetFields.readPair, hi, if_pos hk]
        · have : ∃ s', ReadFrom parseUrl {} pre s' := by
            rcases hv with hv | ⟨w, h, hv, hd⟩
            · obtain ⟨s', hs, -⟩ := (readFrom_exists parseUrl pre none).2 ⟨h1, .inl ⟨rfl, hv⟩⟩
              exact ⟨s', hs⟩
            · obtain ⟨s', hs, -⟩ := (readFrom_exists parseUrl pre (some h)).2 ⟨h1, .inr ⟨w, h, rfl, hv, hd⟩⟩
              exact ⟨s', hs⟩
          obtain ⟨s', hs⟩ := this
          refine hthis (.invalidTracker x) ((fold_error _ _ _ _).2 ⟨pre, (k, v), post, s', rfl, hs, ?_⟩)
          simp only [MagnetFields.readPair]
          rw [if_neg (by rw [hk]; exact n2.symm), if_neg (by rw [hk]; exact n3.symm), if_pos hk, hx]

-- an upper-case `XT` and an unknown parameter are ignored, the last name counts, two trackers
example : DescribesMagnet (fun s => some ⟨"http".toList, some (.domain s), none, [], none, none, []⟩)
    (textPairs (fun b => b.map fun x => Char.ofNat x.toNat)
      "dn=a&xt=urn%3Abtih:AAAAAAAAAAAAAAAAAAAAAAAAAAAAAAAA&tr=x+y&XT=1&&dn=b%26c&tr=z".toList)
    ⟨⟨List.replicate 20 0, rfl⟩, some "b&c".toList,
      [.http ⟨"http".toList, some (.domain "x y".toList), none, [], none, none, []⟩,
       .http ⟨"http".toList, some (.domain "z".toList), none, [], none, none, []⟩]⟩ := by
  rw [← magnetOfPairs_ok]
  decide +kernel

/-! ### C19 -/

/-- The lines are the lines of the file. -/
theorem fileLines_spec (b : Bytes) (ls : List Bytes) : fileLines b = ls ↔ IsLines b ls := by
  have hex : ∀ b, IsLines b (fileLines b) := by
    intro b
    generalize hn : b.length = n
    induction n using Nat.strongRecOn generalizing b with
    | _ n ih =>
      rw [fileLines]
      split
      · rename_i h; rw [h]; exact .nil
      · rename_i h
        have happ := List.takeWhile_append_dropWhile (p := (· ≠ (10 : UInt8))) (l := b)
        have hno : 10 ∉ b.takeWhile (· ≠ (10 : UInt8)) := by
          intro hm
          have := List.mem_takeWhile_imp hm
          simp at this
        simp only
        split
        · rename_i hd
          rw [hd, List.append_nil] at happ
          rw [happ] at hno ⊢
          exact .last h hno
        · rename_i x rest hd
          have hx : x = 10 := by
            have h0 : b.dropWhile (· ≠ (10 : UInt8)) ≠ [] := by rw [hd]; simp
            have := List.head_dropWhile_not (p := (· ≠ (10 : UInt8))) (l := b) h0
            simp only [hd, List.head_cons] at this
            simpa using this
          subst hx
          rw [hd] at happ
          have hlt : rest.length < n := by
            have h1 : (b.dropWhile (· ≠ (10 : UInt8))).length ≤ b.length := (List.dropWhile_sublist _).length_le
            rw [hd, List.length_cons] at h1
            omega
          have hr := ih _ hlt rest rfl
          split
          · rename_i hcr
            have hsplit : b.takeWhile (· ≠ (10 : UInt8)) = (b.takeWhile (· ≠ (10 : UInt8))).dropLast ++ [13] := by
              have := List.dropLast_append_getLast? _ hcr
              exact this.symm
            have hb : b = (b.takeWhile (· ≠ (10 : UInt8))).dropLast ++ [13, 10] ++ rest := by
              conv_lhs => rw [← happ, hsplit]
              simp
            conv => arg 1; rw [hb]
            refine .crlf ?_ hr
            intro hm
            exact hno (List.dropLast_subset _ hm)
          · rename_i hcr
            have hb : b = b.takeWhile (· ≠ (10 : UInt8)) ++ [10] ++ rest := by
              conv_lhs => rw [← happ]
              simp
            conv => arg 1; rw [hb]
            exact .lf hno hcr hr
  have key : ∀ (l rest : Bytes), 10 ∉ l → (l ++ 10 :: rest).takeWhile (· ≠ (10 : UInt8)) = l ∧
      (l ++ 10 :: rest).dropWhile (· ≠ (10 : UInt8)) = 10 :: rest := by
    intro l rest hl
    have hp : ∀ x ∈ l, (decide (x ≠ (10 : UInt8))) = true := by
      intro x hx
      simp only [decide_eq_true_eq]
      rintro rfl; exact hl hx
    rw [List.takeWhile_append_of_pos hp, List.dropWhile_append_of_pos hp]
    simp
  constructor
  · rintro rfl; exact hex b
  · intro h
    induction h with
    | nil => rw [fileLines, dif_pos rfl]
    | @last l h0 h1 =>
      have hp : ∀ x ∈ l, (decide (x ≠ (10 : UInt8))) = true := by
        intro x hx
        simp only [decide_eq_true_eq]
        rintro rfl; exact h1 hx
      have ht : l.takeWhile (· ≠ (10 : UInt8)) = l := by rw [List.takeWhile_eq_self_iff]; exact hp
      have hd : l.dropWhile (· ≠ (10 : UInt8)) = [] := by rw [List.dropWhile_eq_nil_iff]; exact hp
      rw [fileLines, dif_neg h0]
      simp only [ht]
      split
      · rfl
      · rename_i hh; rw [hd] at hh; cases hh
    | @lf l rest ls h1 h2 hr ih =>
      obtain ⟨k1, k2⟩ := key l rest h1
      rw [List.append_assoc, List.singleton_append, fileLines, dif_neg (by simp)]
      simp only [k1]
      split
      · rename_i hh; rw [k2] at hh; cases hh
      · rename_i x r hh
        rw [k2] at hh
        cases hh
        rw [if_neg h2, ih]
    | @crlf l rest ls h1 hr ih =>
      obtain ⟨k1, k2⟩ := key (l ++ [13]) rest (by simp [h1])
      have e : l ++ [13, 10] ++ rest = (l ++ [13]) ++ 10 :: rest := by simp
      rw [e, fileLines, dif_neg (by simp)]
      simp only [k1]
      split
      · rename_i hh; rw [k2] at hh; cases hh
      · rename_i x r hh
        rw [k2] at hh
        cases hh
        rw [if_pos (by simp), ih]
        simp

theorem isWhitespace_iff (c : Char) : isWhitespace c = true ↔ IsWhite c := by
  unfold isWhitespace IsWhite whiteSpace
  simp only [Bool.or_eq_true, Bool.and_eq_true, decide_eq_true_eq, beq_iff_eq, List.mem_cons, List.not_mem_nil, or_false]
  omega

/-- What is left of a text by `trim`. -/
theorem trim_spec (t s : Text) : trim t = s ↔ TrimmedOf t s := by
  have dropw : ∀ (l : Text), ∃ a, l = a ++ l.dropWhile isWhitespace ∧ (∀ c ∈ a, IsWhite c) ∧
      ∀ c, (l.dropWhile isWhitespace).head? = some c → ¬ IsWhite c := by
    intro l
    refine ⟨l.takeWhile isWhitespace, List.takeWhile_append_dropWhile.symm, ?_, ?_⟩
    · intro c hc; exact (isWhitespace_iff c).1 (List.mem_takeWhile_imp hc)
    · intro c hc hw
      rw [← isWhitespace_iff] at hw
      have := List.head?_dropWhile_not isWhitespace l
      rw [hc] at this
      simp [hw] at this
  constructor
  · rintro rfl
    obtain ⟨a, ha, ha2, ha3⟩ := dropw t
    obtain ⟨b, hb, hb2, hb3⟩ := dropw (t.dropWhile isWhitespace).reverse
    refine ⟨a, b.reverse, ?_, ha2, (by simpa using hb2), ?_, ?_⟩
    · conv_lhs => rw [ha]
      have := congrArg List.reverse hb
      rw [List.reverse_reverse, List.reverse_append] at this
      rw [List.append_assoc]
      congr 1
    · intro c hc
      -- the first character is that of the text without leading white space
      have := congrArg List.reverse hb
      rw [List.reverse_reverse, List.reverse_append] at this
      apply ha3 c
      rw [this]
      have hne : trim t ≠ [] := by intro e; rw [e] at hc; cases hc
      cases ht : trim t with
      | nil => exact absurd ht hne
      | cons x xs =>
        rw [ht] at hc
        unfold trim at ht
        rw [ht]
        exact hc
    · intro c hc
      apply hb3 c
      rw [trim, List.getLast?_reverse] at hc
      exact hc
  · rintro ⟨a, b, rfl, ha, hb, h1, h2⟩
    unfold trim
    have hdrop : ∀ (p l : Text), (∀ c ∈ p, IsWhite c) → (∀ c, l.head? = some c → ¬ IsWhite c) →
        (p ++ l).dropWhile isWhitespace = l := by
      intro p l hp hl
      rw [List.dropWhile_append_of_pos (fun c hc => (isWhitespace_iff c).2 (hp c hc))]
      cases l with
      | nil => rfl
      | cons x xs =>
        rw [List.dropWhile_cons_of_neg]
        rw [isWhitespace_iff]; exact hl x rfl
    cases s with
    | nil =>
      have hall : ∀ c ∈ a ++ [] ++ b, isWhitespace c = true := by
        intro c hc
        rw [List.append_nil, List.mem_append] at hc
        rw [isWhitespace_iff]
        rcases hc with hc | hc
        · exact ha c hc
        · exact hb c hc
      rw [List.dropWhile_eq_nil_iff.2 hall]
      rfl
    | cons x xs =>
      rw [List.append_assoc, hdrop a _ ha (by intro c hc; exact h1 c hc), List.reverse_append,
        hdrop b.reverse _ (by simpa using hb) (by intro c hc; rw [List.head?_reverse] at hc; exact h2 c hc),
        List.reverse_reverse]

/-- A line is skipped, or is a magnet, or is not text. -/
theorem line_cases (l : Bytes) :
    (fromUtf8 l = none) ∨
    (∃ t, fromUtf8 l = some t ∧ ((trim t).isEmpty || ['#'].isPrefixOf (trim t)) = true ∧ SkippedLine l) ∨
    (∃ t, fromUtf8 l = some t ∧ ((trim t).isEmpty || ['#'].isPrefixOf (trim t)) = false ∧ MagnetLine l (trim t)) := by
  cases h : fromUtf8 l with
  | none => exact .inl rfl
  | some t =>
    right
    have hl := (fromUtf8_iff _ _).1 h
    have ht := (trim_spec t _).1 rfl
    cases hs : trim t with
    | nil => exact .inl ⟨t, rfl, by rw [hs]; rfl, t, trim t, hl, ht, .inl hs⟩
    | cons c r =>
      by_cases hc : c = '#'
      · subst hc
        exact .inl ⟨t, rfl, by rw [hs]; simp [List.isPrefixOf], t, trim t, hl, ht, .inr (by rw [hs]; rfl)⟩
      · refine .inr ⟨t, rfl, by rw [hs]; simp [List.isPrefixOf, Ne.symm hc], t, hl, ht, by simp [hs], by simpa [hs] using hc⟩

theorem utf8_inj {a b : Text} (h : utf8 a = utf8 b) : a = b := by
  have h1 := fromUtf8_utf8 a
  rw [h, fromUtf8_utf8] at h1
  cases h1; rfl

theorem trimmed_unique {t a b : Text} (h1 : TrimmedOf t a) (h2 : TrimmedOf t b) : a = b := by
  rw [← trim_spec] at h1 h2
  rw [← h1, h2]

theorem skipped_not_magnet {l : Bytes} {s : Text} (h1 : SkippedLine l) (h2 : MagnetLine l s) : False := by
  obtain ⟨t, s', rfl, ht, hs⟩ := h1
  obtain ⟨t2, he, ht2, hn, hc⟩ := h2
  have := utf8_inj he
  subst this
  have := trimmed_unique ht ht2
  subst this
  rcases hs with hs | hs
  · exact hn hs
  · exact hc hs

theorem magnetLine_unique {l : Bytes} {a b : Text} (h1 : MagnetLine l a) (h2 : MagnetLine l b) : a = b := by
  obtain ⟨t, rfl, ht, -⟩ := h1
  obtain ⟨t2, he, ht2, -⟩ := h2
  have := utf8_inj he
  subst this
  exact trimmed_unique ht ht2

theorem magnetsLoop_ok (parse : Text → Except MagnetError Magnet) (ls : List Bytes) (i : Nat) (acc ms : List Magnet) :
    magnetsLoop parse ls i acc = .ok ms ↔ ∃ new, ms = acc ++ new ∧ LinesDenote (fun s m => parse s = .ok m) ls new := by
  induction ls generalizing i acc with
  | nil =>
    rw [magnetsLoop]
    constructor
    · intro h; cases h; exact ⟨[], by simp, .nil⟩
    · rintro ⟨new, rfl, h⟩; cases h; simp
  | cons l ls ih =>
    rw [magnetsLoop]
    rcases line_cases l with h | ⟨t, h, hc, hs⟩ | ⟨t, h, hc, hs⟩
    · rw [h]
      simp only [reduceCtorEq, false_iff]
      rintro ⟨new, -, hl⟩
      cases hl with
      | skip hk _ => obtain ⟨t, s, rfl, -⟩ := hk; rw [fromUtf8_utf8] at h; cases h
      | magnet hk _ _ => obtain ⟨t, rfl, -⟩ := hk; rw [fromUtf8_utf8] at h; cases h
    · rw [h]
      simp only [hc, if_true, ih]
      constructor
      · rintro ⟨new, rfl, hn⟩; exact ⟨new, rfl, .skip hs hn⟩
      · rintro ⟨new, rfl, hn⟩
        refine ⟨new, rfl, ?_⟩
        cases hn with
        | skip _ hn => exact hn
        | magnet hk _ _ => exact (skipped_not_magnet hs hk).elim
    · rw [h]
      simp only [hc, Bool.false_eq_true, if_false]
      cases hp : parse (trim t) with
      | ok m =>
        simp only [ih]
        constructor
        · rintro ⟨new, rfl, hn⟩; exact ⟨m :: new, by simp, .magnet hs hp hn⟩
        · rintro ⟨new, rfl, hn⟩
          cases hn with
          | skip hk _ => exact (skipped_not_magnet hk hs).elim
          | magnet hk hp' hn =>
            have := magnetLine_unique hk hs
            subst this
            simp only [hp, Except.ok.injEq] at hp'
            subst hp'
            exact ⟨_, by simp, hn⟩
      | error e =>
        simp only [reduceCtorEq, false_iff]
        rintro ⟨new, -, hn⟩
        cases hn with
        | skip hk _ => exact (skipped_not_magnet hk hs).elim
        | magnet hk hp' hn =>
          have := magnetLine_unique hk hs
          subst this
          simp only [hp, reduceCtorEq] at hp'

theorem magnetsLoop_error (parse : Text → Except MagnetError Magnet) (ls : List Bytes) (i n : Nat) (acc : List Magnet)
    (e : MagnetError) :
    magnetsLoop parse ls i acc = .error (.parse n e) ↔ ∃ pre l post s ms, ls = pre ++ l :: post ∧ n = i + pre.length + 1 ∧
      LinesDenote (fun s m => parse s = .ok m) pre ms ∧ MagnetLine l s ∧ parse s = .error e := by
  induction ls generalizing i acc with
  | nil =>
    rw [magnetsLoop]
    simp
  | cons l ls ih =>
    rw [magnetsLoop]
    rcases line_cases l with h | ⟨t, h, hc, hs⟩ | ⟨t, h, hc, hs⟩
    · rw [h]
      simp only [Except.error.injEq, reduceCtorEq, false_iff]
      rintro ⟨pre, l', post, s, ms, he, -, hl, hm, -⟩
      cases pre with
      | nil =>
        cases he
        obtain ⟨t, rfl, -⟩ := hm; rw [fromUtf8_utf8] at h; cases h
      | cons x pre =>
        cases he
        cases hl with
        | skip hk _ => obtain ⟨t, s, rfl, -⟩ := hk; rw [fromUtf8_utf8] at h; cases h
        | magnet hk _ _ => obtain ⟨t, rfl, -⟩ := hk; rw [fromUtf8_utf8] at h; cases h
    · rw [h]
      simp only [hc, if_true, ih]
      constructor
      · rintro ⟨pre, l', post, s, ms, rfl, rfl, hl, hm, he⟩
        exact ⟨l :: pre, l', post, s, ms, rfl, by simp; omega, .skip hs hl, hm, he⟩
      · rintro ⟨pre, l', post, s, ms, he, rfl, hl, hm, hp⟩
        cases pre with
        | nil => cases he; exact (skipped_not_magnet hs hm).elim
        | cons x pre =>
          cases he
          cases hl with
          | skip _ hl => exact ⟨pre, l', post, s, ms, rfl, by simp; omega, hl, hm, hp⟩
          | magnet hk _ _ => exact (skipped_not_magnet hs hk).elim
    · rw [h]
      simp only [hc, Bool.false_eq_true, if_false]
      cases hp : parse (trim t) with
      | ok m =>
        simp only [ih]
        constructor
        · rintro ⟨pre, l', post, s, ms, rfl, rfl, hl, hm, he⟩
          exact ⟨l :: pre, l', post, s, m :: ms, rfl, by simp; omega, .magnet hs hp hl, hm, he⟩
        · rintro ⟨pre, l', post, s, ms, he, rfl, hl, hm, hp'⟩
          cases pre with
          | nil =>
            cases he
            have := magnetLine_unique hm hs
            subst this
            rw [hp] at hp'; cases hp'
          | cons x pre =>
            cases he
            cases hl with
            | skip hk _ => exact (skipped_not_magnet hk hs).elim
            | magnet hk _ hl => exact ⟨pre, l', post, s, _, rfl, by simp; omega, hl, hm, hp'⟩
      | error e' =>
        simp only [Except.error.injEq, MagnetsFileError.parse.injEq]
        constructor
        · rintro ⟨rfl, rfl⟩
          exact ⟨[], l, ls, trim t, [], rfl, by simp, .nil, hs, hp⟩
        · rintro ⟨pre, l', post, s, ms, he, rfl, hl, hm, hp'⟩
          cases pre with
          | nil =>
            cases he
            have := magnetLine_unique hm hs
            subst this
            rw [hp] at hp'; cases hp'
            exact ⟨by simp, rfl⟩
          | cons x pre =>
            cases he
            cases hl with
            | skip hk _ => exact (skipped_not_magnet hk hs).elim
            | magnet hk hk2 hl =>
              have := magnetLine_unique hk hs
              subst this
              rw [hp] at hk2; cases hk2

/-- **C19.** Reading a file succeeds iff every line is text and every line that is neither blank nor a comment is, without the
white space around it, a magnet link; the result is the magnets in the order of the lines. -/
theorem magnetsFile_ok (parse : Text → Except MagnetError Magnet) (content : Bytes) (ms : List Magnet) :
    parseMagnetsFile parse content = .ok ms ↔ ∃ ls, IsLines content ls ∧ LinesDenote (fun s m => parse s = .ok m) ls ms := by
  unfold parseMagnetsFile
  rw [magnetsLoop_ok]
  constructor
  · rintro ⟨new, rfl, h⟩; exact ⟨_, (fileLines_spec _ _).1 rfl, h⟩
  · rintro ⟨ls, hl, h⟩
    rw [← fileLines_spec] at hl
    subst hl
    exact ⟨ms, rfl, h⟩

/-- **C19.** A rejection names the first invalid line (counted from 1) and its error: all lines before it are blank, comments
or valid magnet links. -/
theorem magnetsFile_error (parse : Text → Except MagnetError Magnet) (content : Bytes) (n : Nat) (e : MagnetError) :
    parseMagnetsFile parse content = .error (.parse n e) ↔ ∃ pre l post s ms, IsLines content (pre ++ l :: post) ∧
      n = pre.length + 1 ∧ LinesDenote (fun s m => parse s = .ok m) pre ms ∧ MagnetLine l s ∧ parse s = .error e := by
  unfold parseMagnetsFile
  rw [magnetsLoop_error]
  constructor
  · rintro ⟨pre, l, post, s, ms, h, rfl, h3⟩
    exact ⟨pre, l, post, s, ms, (fileLines_spec _ _).1 h, by simp, h3⟩
  · rintro ⟨pre, l, post, s, ms, h, rfl, h3⟩
    exact ⟨pre, l, post, s, ms, (fileLines_spec _ _).2 h, by simp, h3⟩

-- a file with a comment, a blank line, white space and both kinds of line ends
example : ∃ ms, parseMagnetsFile (fun s => if s.length = 2 then .ok ⟨⟨List.replicate 20 0, rfl⟩, some s, []⟩ else .error .noXt)
    (utf8 "# a\n  m1 \r\n\u3000\nm2".toList) = .ok ms ∧ ms.length = 2 := by
  refine ⟨[⟨⟨List.replicate 20 0, rfl⟩, some "m1".toList, []⟩, ⟨⟨List.replicate 20 0, rfl⟩, some "m2".toList, []⟩], ?_, rfl⟩
  decide +kernel

end Demag.Props
