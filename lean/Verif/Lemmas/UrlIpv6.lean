import Verif.Lemmas.UrlParse

/-!
# Lemmas: IPv6 addresses in URLs
-/

namespace Demag

open Spec

/-- What is made of a text that begins with a group. -/
def afterGroup (s : Text) (n : Nat) (pieces : List Nat) (compress : Option Nat) : Text → Option (List Nat × Option Nat)
  | [] => some (pieces ++ [n], compress)
  | d :: r =>
    if d = '.' then
      if 6 < pieces.length then none
      else
        ((readIpv4 s).filter fun p => p.2.isEmpty).map fun p => (pieces ++ [p.1 / 65536, p.1 % 65536], compress)
    else if d = ':' then
      if r = [] then none else ipv6Pieces r (pieces ++ [n]) compress
    else none

theorem isSome16 (c : Char) : (toDigit 16 c).isSome = (hexDigit c).isSome := by rw [toDigit16]

theorem hexFold (t : Text) : t.foldl (fun v c => v * 16 + (toDigit 16 c).getD 0) 0 = ofDigits 16 (t.map fun c => (hexDigit c).getD 0) := by
  have := foldl_digits 16 (fun c => (hexDigit c).getD 0) t
  simpa [toDigit16] using this

theorem ipv6Pieces_group {n : Nat} {t r : Text} (h : IsGroup n t) (hr : ∀ c ∈ r.head?, (hexDigit c).isSome = false)
    {pieces : List Nat} (hl : pieces.length ≠ 8) (compress : Option Nat) :
    ipv6Pieces (t ++ r) pieces compress = afterGroup (t ++ r) n pieces compress r := by
  obtain ⟨h0, h4, ds, hd, hv⟩ := h
  obtain ⟨hhex, hds⟩ := (mapM_hexDigit t ds).1 hd
  match t, h0 with
  | c :: t', _ =>
    have htake : (((c :: t') ++ r).takeWhile fun c => (toDigit 16 c).isSome).take 4 = c :: t' := by
      have h1 := (takeWhile_stop (p := fun c => (toDigit 16 c).isSome) (t := c :: t') (r := r)
        (fun x hx => by rw [isSome16]; exact hhex x hx) (fun x hx => by rw [isSome16]; exact hr x hx)).1
      rw [h1, List.take_of_length_le h4]
    have hc : c ≠ ':' := by
      rintro rfl
      have := hhex ':' (by simp)
      cases this
    rw [List.cons_append] at htake ⊢
    rw [ipv6Pieces.eq_def]
    simp only [if_neg hl, if_neg hc]
    simp only [htake, hexFold, hds, hv]
    have hdrop : (c :: (t' ++ r)).drop (c :: t').length = r := by simp
    rw [afterGroup.eq_def]
    split
    · next e => rw [htake, hdrop] at e; subst e; rfl
    · next d r' e =>
      rw [htake, hdrop] at e
      subst e
      simp

theorem ipv6Pieces_nil (pieces : List Nat) (compress : Option Nat) : ipv6Pieces [] pieces compress = some (pieces, compress) := by
  rw [ipv6Pieces]

theorem ipv6Pieces_colon {pieces : List Nat} (hl : pieces.length ≠ 8) (r : Text) (compress : Option Nat) :
    ipv6Pieces (':' :: r) pieces compress =
      if compress.isSome then none else ipv6Pieces r (pieces ++ [0]) (some (pieces.length + 1)) := by
  rw [ipv6Pieces.eq_def]
  simp only [if_neg hl, if_true]

theorem groups_ne {t : Text} {gs : List Nat} (h : IsGroups t gs) : t ≠ [] ∧ gs ≠ [] := by
  cases h with
  | one h => exact ⟨h.1, by simp⟩
  | dotted h =>
    obtain ⟨a, b, c, d, ta, tb, tc, td, -, -, -, -, rfl, -⟩ := h
    exact ⟨by simp, by simp⟩
  | more h _ => exact ⟨by simp, by simp⟩

theorem ipv6Pieces_groups {t : Text} {gs : List Nat} (h : IsGroups t gs) : ∀ (pieces : List Nat) (compress : Option Nat),
    pieces.length + gs.length ≤ 8 → ipv6Pieces t pieces compress = some (pieces ++ gs, compress) := by
  induction h with
  | @one n t h =>
    intro pieces compress hl
    have := ipv6Pieces_group h (r := []) (by simp) (pieces := pieces) (by simp at hl; omega) compress
    rw [List.append_nil] at this
    rw [this]; rfl
  | @dotted t n h =>
    intro pieces compress hl
    have h4 : readIpv4 t = some (n, []) := readIpv4_iff.2 ⟨t, by simp, h, fun c hc => by cases hc⟩
    obtain ⟨a, b, c, d, ta, tb, tc, td, ha, hb, hc, hd, ht, hn⟩ := h
    have hg : ∃ v, IsGroup v ta := by
      obtain ⟨⟨h0, h1, h2, h3⟩, h256⟩ := ha
      refine ⟨_, h0, ?_, _, (mapM_hexDigit ta _).2 ⟨fun c hc => ?_, rfl⟩, rfl⟩
      · exact digits_length (k := 4) h1 h3 h2 (by omega) (by omega)
      · have := hexDigit_of_isDigit (h1 c hc)
        cases e : hexDigit c with
        | none => exact absurd e this
        | some x => rfl
    obtain ⟨v, hg⟩ := hg
    simp only [List.length_cons, List.length_nil] at hl
    rw [ht] at h4 ⊢
    rw [ipv6Pieces_group hg (r := '.' :: _) (by intro c hc; cases hc; decide) (by omega), afterGroup, if_pos rfl, if_neg (by omega), h4]
    rfl
  | @more n t ns u h hu ih =>
    intro pieces compress hl
    simp only [List.length_cons] at hl
    rw [ipv6Pieces_group h (r := ':' :: u) (by intro c hc; cases hc; decide) (by omega), afterGroup, if_neg (by decide), if_pos rfl,
      if_neg (groups_ne hu).1, ih _ _ (by simp; omega)]
    simp

theorem ipv6Pieces_hexGroups {t : Text} {gs : List Nat} (h : IsHexGroups t gs) (back : Text) : ∀ (pieces : List Nat),
    pieces.length + gs.length ≤ 7 → ipv6Pieces (t ++ ':' :: ':' :: back) pieces none =
      ipv6Pieces back (pieces ++ gs ++ [0]) (some (pieces.length + gs.length + 1)) := by
  induction h with
  | @one n t h =>
    intro pieces hl
    simp only [List.length_cons, List.length_nil] at hl
    rw [ipv6Pieces_group h (r := ':' :: _) (by intro c hc; cases hc; decide) (by omega), afterGroup, if_neg (by decide), if_pos rfl,
      if_neg (by simp), ipv6Pieces_colon (by simp; omega)]
    simp
  | @more n t ns u h hu ih =>
    intro pieces hl
    simp only [List.length_cons] at hl
    rw [List.append_assoc, List.cons_append, ipv6Pieces_group h (r := ':' :: _) (by intro c hc; cases hc; decide) (by omega), afterGroup,
      if_neg (by decide), if_pos rfl, if_neg (by simp), ih _ (by simp; omega)]
    simp [Nat.add_assoc, Nat.add_comm 1]

/-- Reading the groups in front of a `.`, a `:` or the end. -/
theorem ipv6Pieces_cons {c : Char} {r : Text} {pieces : List Nat} {compress : Option Nat} {x : List Nat × Option Nat} (hc : c ≠ ':')
    (h : ipv6Pieces (c :: r) pieces compress = some x) :
    pieces.length ≠ 8 ∧ ∃ t r' n, c :: r = t ++ r' ∧ IsGroup n t ∧ afterGroup (c :: r) n pieces compress r' = some x := by
  rw [ipv6Pieces.eq_def] at h
  simp only [if_neg hc] at h
  split at h
  · cases h
  · next hl =>
    refine ⟨hl, ?_⟩
    have hpre : ((c :: r).takeWhile fun c => (toDigit 16 c).isSome).take 4 =
        (c :: r).take (((c :: r).takeWhile fun c => (toDigit 16 c).isSome).take 4).length := by
      have h1 : ((c :: r).takeWhile fun c => (toDigit 16 c).isSome).take 4 <+: c :: r :=
        (List.take_prefix _ _).trans (List.takeWhile_prefix _)
      exact List.prefix_iff_eq_take.1 h1
    have hhex : ∀ x ∈ ((c :: r).takeWhile fun c => (toDigit 16 c).isSome).take 4, (hexDigit x).isSome = true := by
      intro x hx
      rw [← isSome16]
      have := List.all_takeWhile (l := c :: r) (p := fun c => (toDigit 16 c).isSome)
      exact List.all_eq_true.1 this x (List.mem_of_mem_take hx)
    have h4 : (((c :: r).takeWhile fun c => (toDigit 16 c).isSome).take 4).length ≤ 4 := by rw [List.length_take]; omega
    have happ : c :: r = ((c :: r).takeWhile fun c => (toDigit 16 c).isSome).take 4 ++
        (c :: r).drop (((c :: r).takeWhile fun c => (toDigit 16 c).isSome).take 4).length := by
      have := (List.take_append_drop (((c :: r).takeWhile fun c => (toDigit 16 c).isSome).take 4).length (c :: r)).symm
      rwa [← hpre] at this
    generalize ((c :: r).takeWhile fun c => (toDigit 16 c).isSome).take 4 = t at hpre hhex h4 happ h
    generalize hr' : (c :: r).drop t.length = r' at happ h
    have group : t ≠ [] → IsGroup (ofDigits 16 (t.map fun c => (hexDigit c).getD 0)) t :=
      fun h0 => ⟨h0, h4, _, (mapM_hexDigit t _).2 ⟨hhex, rfl⟩, rfl⟩
    rw [hexFold] at h
    have h0 : t ≠ [] := by
      rintro rfl
      rw [List.nil_append] at happ
      split at h
      · cases happ
      · next d r'' =>
        injection happ with e1 e2
        subst e1
        simp only [List.isEmpty_nil, if_true] at h
        split at h
        · cases h
        · first | (rw [if_neg hc] at h; cases h) | cases h
    refine ⟨t, r', _, happ, group h0, ?_⟩
    rw [← h]
    rw [afterGroup.eq_def]
    match r' with
    | [] => rfl
    | d :: r'' =>
      simp only [List.isEmpty_iff, h0, if_false]

theorem ipv6Pieces_sound_some (s : Text) : ∀ (pieces : List Nat) (k : Nat) (ps : List Nat) (k' : Option Nat),
    ipv6Pieces s pieces (some k) = some (ps, k') → pieces.length ≤ 8 →
    k' = some k ∧ ps.length ≤ 8 ∧ ∃ gs, ps = pieces ++ gs ∧ (s = [] ∧ gs = [] ∨ IsGroups s gs) := by
  generalize hn : s.length = n
  induction n using Nat.strongRecOn generalizing s with
  | _ n ih =>
    intro pieces k ps k' h hl
    match s with
    | [] =>
      rw [ipv6Pieces_nil] at h
      cases h
      exact ⟨rfl, hl, [], by simp, .inl ⟨rfl, rfl⟩⟩
    | c :: r =>
      by_cases hc : c = ':'
      · subst hc
        rw [ipv6Pieces.eq_def] at h
        simp at h
      · obtain ⟨h8, t, r', v, happ, hg, ha⟩ := ipv6Pieces_cons hc h
        rw [happ]
        rw [afterGroup.eq_def] at ha
        match r' with
        | [] =>
          cases ha
          rw [List.append_nil]
          exact ⟨rfl, by simp; omega, _, rfl, .inr (.one hg)⟩
        | d :: r'' =>
          simp only at ha
          split at ha
          · split at ha
            · cases ha
            · next h6 =>
                rw [Option.map_eq_some_iff] at ha
                obtain ⟨⟨v', r4⟩, e4, ha⟩ := ha
                rw [Option.filter_eq_some_iff] at e4
                obtain ⟨e4, he⟩ := e4
                rw [List.isEmpty_iff] at he
                simp only at he
                subst he
                cases ha
                obtain ⟨t', ht', hd, -⟩ := readIpv4_iff.1 e4
                rw [List.append_nil] at ht'
                rw [happ] at ht'
                rw [ht']
                exact ⟨rfl, by simp; omega, _, rfl, .inr (.dotted hd)⟩
          · split at ha
            · next hd =>
              split at ha
              · cases ha
              · next hne =>
                subst hd
                have hlt : r''.length < n := by
                  rw [← hn, happ]; simp; omega
                obtain ⟨h1, h2, gs, h3, h4⟩ := ih r''.length hlt r'' rfl _ _ _ _ ha (by simp; omega)
                refine ⟨h1, h2, v :: gs, by rw [h3]; simp, .inr ?_⟩
                exact .more hg (h4.resolve_left fun h => hne h.1)
            · cases ha

theorem ipv6Pieces_sound_none (s : Text) : ∀ (pieces : List Nat) (ps : List Nat) (k' : Option Nat),
    ipv6Pieces s pieces none = some (ps, k') → pieces.length ≤ 8 → s ≠ [] →
    ps.length ≤ 8 ∧
    ((k' = none ∧ ∃ gs, ps = pieces ++ gs ∧ IsGroups s gs) ∨
     ∃ front back ns ms, k' = some (pieces.length + ns.length + 1) ∧ ps = pieces ++ ns ++ [0] ++ ms ∧
       (front = [] ∧ ns = [] ∧ s = ':' :: back ∨ IsHexGroups front ns ∧ s = front ++ ':' :: ':' :: back) ∧
       (back = [] ∧ ms = [] ∨ IsGroups back ms)) := by
  generalize hn : s.length = n
  induction n using Nat.strongRecOn generalizing s with
  | _ n ih =>
    intro pieces ps k' h hl hs
    match s with
    | [] => exact absurd rfl hs
    | c :: r =>
      by_cases hc : c = ':'
      · subst hc
        have h8 : pieces.length ≠ 8 := by
          intro h8
          rw [ipv6Pieces.eq_def] at h
          simp [h8] at h
        rw [ipv6Pieces_colon h8] at h
        simp only [Option.isSome_none, Bool.false_eq_true, if_false] at h
        obtain ⟨h1, h2, gs, h3, h4⟩ := ipv6Pieces_sound_some r _ _ _ _ h (by simp; omega)
        exact ⟨h2, .inr ⟨[], r, [], gs, by simpa using h1, by simpa using h3, .inl ⟨rfl, rfl, rfl⟩, h4⟩⟩
      · obtain ⟨h8, t, r', v, happ, hg, ha⟩ := ipv6Pieces_cons hc h
        rw [happ]
        rw [afterGroup.eq_def] at ha
        match r' with
        | [] =>
          cases ha
          rw [List.append_nil]
          exact ⟨by simp; omega, .inl ⟨rfl, _, rfl, .one hg⟩⟩
        | d :: r'' =>
          simp only at ha
          split at ha
          · split at ha
            · cases ha
            · next h6 =>
                rw [Option.map_eq_some_iff] at ha
                obtain ⟨⟨v', r4⟩, e4, ha⟩ := ha
                rw [Option.filter_eq_some_iff] at e4
                obtain ⟨e4, he⟩ := e4
                rw [List.isEmpty_iff] at he
                simp only at he
                subst he
                cases ha
                obtain ⟨t', ht', hd, -⟩ := readIpv4_iff.1 e4
                rw [List.append_nil] at ht'
                rw [happ] at ht'
                rw [ht']
                exact ⟨by simp; omega, .inl ⟨rfl, _, rfl, .dotted hd⟩⟩
          · split at ha
            · next hd =>
              split at ha
              · cases ha
              · next hne =>
                subst hd
                have hlt : r''.length < n := by
                  rw [← hn, happ]; simp; omega
                obtain ⟨h2, h3⟩ := ih r''.length hlt r'' rfl _ _ _ ha (by simp; omega) hne
                refine ⟨h2, ?_⟩
                rcases h3 with ⟨h1, gs, h3, h4⟩ | ⟨front, back, ns, ms, h1, h3, h4, h5⟩
                · exact .inl ⟨h1, v :: gs, by rw [h3]; simp, .more hg h4⟩
                · right
                  rcases h4 with ⟨rfl, rfl, rfl⟩ | ⟨h4, rfl⟩
                  · exact ⟨t, back, [v], ms, by rw [h1]; simp, by rw [h3]; simp, .inr ⟨.one hg, rfl⟩, h5⟩
                  · exact ⟨_, back, v :: ns, ms, by rw [h1]; simp; omega, by rw [h3]; simp, .inr ⟨.more hg h4, by simp⟩, h5⟩
            · cases ha

theorem ipv6Start_nil : ipv6Start [] = some ([], none) := by rw [ipv6Start, ipv6Pieces_nil]

theorem ipv6Start_colons (r : Text) : ipv6Start (':' :: ':' :: r) = ipv6Pieces r [0] (some 1) := by
  simp [ipv6Start]

theorem ipv6Start_other {c : Char} (r : Text) (h : c ≠ ':') : ipv6Start (c :: r) = ipv6Pieces (c :: r) [] none := by
  simp [ipv6Start, h]

theorem ipv6Start_one {c : Char} (r : Text) (h : c ≠ ':') : ipv6Start (':' :: c :: r) = none := by
  simp [ipv6Start, h]

/-- The pieces behind the zero that stands for `::` are moved to the end. -/
theorem ipv6Finish_compress (ns ms : List Nat) (h : ns.length + ms.length ≤ 7) :
    ipv6Finish (ns ++ [0] ++ ms) (some (ns.length + 1)) =
      some (Ipv6.ofSegments (ns ++ List.replicate (8 - (ns.length + ms.length)) 0 ++ ms)) := by
  have e : ns.length + 1 = (ns ++ [0]).length := by simp
  unfold ipv6Finish
  simp only
  rw [e, List.take_left, List.drop_left]
  congr 2
  rw [show 8 - (ns.length + ms.length) = (7 - (ns.length + ms.length)) + 1 by omega, List.replicate_succ]
  simp only [List.append_assoc, List.cons_append, List.nil_append, List.length_append, List.length_cons, List.length_nil]
  rw [show 8 - (ns.length + (ms.length + 1)) = 7 - (ns.length + ms.length) by omega]

/-- Exactly the texts of IPv6 addresses are read as IPv6 addresses in URLs. -/
theorem urlIpv6_iff (t : Text) (ip : Ipv6) : urlIpv6 t = some ip ↔ IsIpv6Text t ip := by
  have finish : ∀ segs, IsEightGroups t segs → (Ipv6.ofSegments segs = ip ↔ ip.bits.toNat = ofDigits 65536 segs) :=
    fun segs h => ipv6_ofSegments_iff (eightGroups_ok h).1 (eightGroups_ok h).2
  unfold urlIpv6
  constructor
  · intro h
    rw [Option.bind_eq_some_iff] at h
    obtain ⟨⟨ps, k⟩, e, h⟩ := h
    simp only at h
    have key : ∃ segs, IsEightGroups t segs ∧ Ipv6.ofSegments segs = ip := by
      match t with
      | [] =>
        rw [ipv6Start_nil] at e
        cases e
        cases h
      | c :: r =>
        by_cases hc : c = ':'
        · subst hc
          match r with
          | [] => cases e
          | d :: r =>
            by_cases hd : d = ':'
            · subst hd
              rw [ipv6Start_colons] at e
              obtain ⟨h1, h2, gs, rfl, h4⟩ := ipv6Pieces_sound_some r _ _ _ _ e (by simp)
              subst h1
              have hl : ([] : List Nat).length + gs.length ≤ 7 := by simp at h2 ⊢; omega
              have hf := ipv6Finish_compress [] gs hl
              simp only [List.nil_append, List.length_nil, Nat.zero_add] at hf
              rw [hf] at h
              injection h with h
              exact ⟨_, .inr ⟨[], r, [], gs, rfl, .inl ⟨rfl, rfl⟩, h4, hl, rfl⟩, by simpa using h⟩
            · rw [ipv6Start_one r hd] at e; cases e
        · rw [ipv6Start_other r hc] at e
          obtain ⟨h1, h2⟩ := ipv6Pieces_sound_none _ _ _ _ e (by simp) (by simp)
          rcases h2 with ⟨rfl, gs, hps, h4⟩ | ⟨front, back, ns, ms, h2, rfl, h4, h5⟩
          · rw [List.nil_append] at hps
            subst hps
            unfold ipv6Finish at h
            simp only at h
            split at h
            · next h8 =>
              injection h with h
              exact ⟨ps, .inl ⟨h4, h8⟩, h⟩
            · cases h
          · subst h2
            rcases h4 with ⟨rfl, rfl, h4⟩ | ⟨h4, h6⟩
            · injection h4 with h4; exact absurd h4 hc
            · have hl : ns.length + ms.length ≤ 7 := by simp at h1; omega
              have hf := ipv6Finish_compress ns ms hl
              simp only [List.nil_append, List.length_nil, Nat.zero_add] at hf h
              rw [hf] at h
              injection h with h
              exact ⟨_, .inr ⟨front, back, ns, ms, h6, .inr h4, h5, hl, rfl⟩, h⟩
    obtain ⟨segs, h1, h2⟩ := key
    exact ⟨segs, h1, (finish segs h1).1 h2⟩
  · rintro ⟨segs, h1, h2⟩
    rw [← (finish segs h1).2 h2]
    have start : ∀ n u v, IsGroup n u → ipv6Start (u ++ v) = ipv6Pieces (u ++ v) [] none := by
      intro n u v hu
      match u, hu.1 with
      | c :: u', _ =>
        apply ipv6Start_other
        rintro rfl
        exact absurd (group_hex hu ':' (by simp)) (by decide)
    rcases h1 with ⟨hg, h8⟩ | ⟨front, back, ns, ms, rfl, hf, hb, hl, rfl⟩
    · have hs : ipv6Start t = ipv6Pieces t [] none := by
        cases hg with
        | one h => simp at h8
        | dotted h => simp at h8
        | more h hu => exact start _ _ _ h
      rw [hs, ipv6Pieces_groups hg [] none (by simp; omega)]
      simp [ipv6Finish, h8]
    · have back' : ∀ pieces k, pieces.length + ms.length ≤ 8 → ipv6Pieces back pieces (some k) = some (pieces ++ ms, some k) := by
        intro pieces k hl
        rcases hb with ⟨rfl, rfl⟩ | hb
        · rw [ipv6Pieces_nil, List.append_nil]
        · exact ipv6Pieces_groups hb _ _ hl
      have hfin := ipv6Finish_compress ns ms hl
      rcases hf with ⟨rfl, rfl⟩ | hf
      · rw [List.nil_append, ipv6Start_colons, back' _ _ (by simp at hl ⊢; omega)]
        exact hfin
      · have hs : ipv6Start (front ++ ':' :: ':' :: back) = ipv6Pieces (front ++ ':' :: ':' :: back) [] none := by
          cases hf with
          | one h => exact start _ _ _ h
          | more h hu => rw [List.append_assoc]; exact start _ _ _ h
        rw [hs, ipv6Pieces_hexGroups hf back [] (by simp; omega), back' _ _ (by simp; omega)]
        simpa using hfin

end Demag
