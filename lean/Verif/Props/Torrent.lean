import Verif.Spec.Torrent
import Verif.Model.Info
import Verif.Props.Bencode
import Verif.Lemmas.Maps
import Verif.Lemmas.Fields

/-!
# C11, C12: collecting the metadata; C13: the torrent file
-/

namespace Demag.Props

open Demag Spec

theorem pieceSizes_eq (n : Nat) : pieceSizes n = (List.range (pieceCount n)).map (pieceSize n) := by
  apply List.ext_getElem?
  intro i
  unfold pieceSizes pieceCount
  have hL : pieceLength = 16384 := rfl
  simp only [hL]
  have hdiv := Nat.div_add_mod n 16384
  have hmod := Nat.mod_lt n (show 16384 > 0 by decide)
  generalize n / 16384 = q at *
  generalize n % 16384 = r at *
  subst hdiv
  by_cases hr : r > 0
  · have hc : (16384 * q + r + 16383) / 16384 = q + 1 := by omega
    rw [if_pos hr, hc]
    by_cases hi : i < q
    · rw [List.getElem?_append_left (by simpa using hi), List.getElem?_replicate, if_pos hi]
      rw [List.getElem?_map, List.getElem?_range (by omega)]
      simp only [Option.map_some, pieceSize, Option.some.injEq]; omega
    · rw [List.getElem?_append_right (by simpa using hi), List.length_replicate]
      by_cases hiq : i = q
      · subst hiq
        rw [List.getElem?_map, List.getElem?_range (by omega)]
        simp only [Nat.sub_self, List.getElem?_cons_zero, Option.map_some, pieceSize, Option.some.injEq]; omega
      · rw [List.getElem?_eq_none (by simp; omega), List.getElem?_eq_none (by simp; omega)]
  · have hc : (16384 * q + r + 16383) / 16384 = q := by omega
    rw [if_neg hr, hc]
    by_cases hi : i < q
    · rw [List.getElem?_replicate, if_pos hi, List.getElem?_map, List.getElem?_range (by omega)]
      simp only [Option.map_some, pieceSize, Option.some.injEq]; omega
    · rw [List.getElem?_eq_none (by simp; omega), List.getElem?_eq_none (by simp; omega)]

theorem pieceSizes_length (n : Nat) : (pieceSizes n).length = pieceCount n := by
  rw [pieceSizes_eq]; simp

theorem pieceSizes_get (n i : Nat) (h : i < pieceCount n) : (pieceSizes n)[i]? = some (pieceSize n i) := by
  rw [pieceSizes_eq, List.getElem?_map, List.getElem?_range h]; rfl

theorem sum_prefix (n : Nat) : ∀ k, k ≤ pieceCount n → ((List.range k).map (pieceSize n)).sum = min n (16384 * k) := by
  intro k
  induction k with
  | zero => simp
  | succ k ih =>
    intro hk
    rw [List.range_succ, List.map_append, List.sum_append, ih (by omega)]
    simp only [List.map_cons, List.map_nil, List.sum_cons, List.sum_nil, pieceSize]
    unfold pieceCount at hk
    omega

/-- **C11.** The division of `n` bytes into pieces: the sizes sum to `n`, all but the last are 16 KiB, the last is
between 1 byte and 16 KiB. -/
theorem pieces_cover (n : Nat) :
    ((List.range (pieceCount n)).map (pieceSize n)).sum = n ∧
    (∀ i, i + 1 < pieceCount n → pieceSize n i = 16384) ∧
    (∀ i, i + 1 = pieceCount n → 0 < pieceSize n i ∧ pieceSize n i ≤ 16384) := by
  refine ⟨?_, ?_, ?_⟩
  · rw [sum_prefix n _ (Nat.le_refl _)]
    unfold pieceCount; omega
  · intro i hi; unfold pieceCount at hi; unfold pieceSize; omega
  · intro i hi; unfold pieceCount at hi; unfold pieceSize; omega

/-- **C11.** A size is refused exactly if it exceeds 20 MiB. -/
theorem builder_new_spec (h : InfoHash) (n : BitVec 32) :
    (n.toNat ≤ 20 * 1024 * 1024 → ∃ b, TorrentInfoBuilder.new h n = .ok b) ∧
    (n.toNat > 20 * 1024 * 1024 → TorrentInfoBuilder.new h n = .error (.tooLarge n)) := by
  have hM : maxInfoLength = 20 * 1024 * 1024 := rfl
  unfold TorrentInfoBuilder.new
  rw [hM]
  constructor
  · intro hn
    rw [if_neg (by omega)]
    simp only
    rw [pieceSizes_length, if_pos (by unfold pieceCount; omega)]
    exact ⟨_, rfl⟩
  · intro hn
    rw [if_pos hn]

/-- Pushing pieces until the first error (as the download session does). -/
def pushAll (b : TorrentInfoBuilder) : List Bytes → Except PushError TorrentInfoBuilder
  | [] => .ok b
  | p :: ps =>
    match b.push p with
    | (b', .ok ()) => pushAll b' ps
    | (_, .error e) => .error e

/-- The state after the pieces `ps` were pushed. -/
def Collected (h : InfoHash) (n : Nat) (ps : List Bytes) (b : TorrentInfoBuilder) : Prop :=
  b.infoHash = h ∧ b.hasher = ps.flatten ∧ b.data = ps.flatten ∧ b.sizes = pieceSizes n ∧
  b.lo = ps.length ∧ b.hi = pieceCount n ∧ GoodPieces n ps

theorem goodPieces_nil (n : Nat) : GoodPieces n [] := ⟨Nat.zero_le _, fun i h => absurd h (by simp)⟩

theorem goodPieces_snoc (n : Nat) (ps : List Bytes) (p : Bytes) :
    GoodPieces n (ps ++ [p]) ↔ GoodPieces n ps ∧ ps.length < pieceCount n ∧ p.length = pieceSize n ps.length := by
  unfold GoodPieces
  simp only [List.length_append, List.length_cons, List.length_nil]
  constructor
  · rintro ⟨h1, h2⟩
    refine ⟨⟨by omega, fun i hi => ?_⟩, by omega, ?_⟩
    · have := h2 i (by omega)
      rwa [List.getElem_append_left hi] at this
    · have := h2 ps.length (by omega)
      simpa using this
  · rintro ⟨⟨h1, h2⟩, h3, h4⟩
    refine ⟨by omega, fun i hi => ?_⟩
    by_cases hip : i < ps.length
    · rw [List.getElem_append_left hip]; exact h2 i hip
    · have : i = ps.length := by omega
      subst this
      simpa using h4

theorem collected_new (h : InfoHash) (n : BitVec 32) (b : TorrentInfoBuilder) (hb : TorrentInfoBuilder.new h n = .ok b) :
    Collected h n.toNat [] b := by
  unfold TorrentInfoBuilder.new at hb
  split at hb
  · cases hb
  · simp only at hb
    split at hb
    · cases hb
      exact ⟨rfl, rfl, rfl, rfl, rfl, pieceSizes_length _, goodPieces_nil _⟩
    · cases hb

theorem collected_push (h : InfoHash) (n : Nat) (ps : List Bytes) (b : TorrentInfoBuilder) (hc : Collected h n ps b) (p : Bytes) :
    (ps.length < pieceCount n ∧ p.length = pieceSize n ps.length ∧
      ∃ b', b.push p = (b', .ok ()) ∧ Collected h n (ps ++ [p]) b') ∨
    (ps.length < pieceCount n ∧ p.length ≠ pieceSize n ps.length ∧
      (b.push p).2 = .error (.length ps.length (pieceSize n ps.length) p.length)) ∨
    (ps.length = pieceCount n ∧ (b.push p).2 = .error .tooManyPieces) := by
  obtain ⟨h1, h2, h3, h4, h5, h6, h7⟩ := hc
  by_cases hlt : ps.length < pieceCount n
  · have hget := pieceSizes_get n ps.length hlt
    by_cases hl : p.length = pieceSize n ps.length
    · refine .inl ⟨hlt, hl, ?_⟩
      refine ⟨{ b with lo := b.lo + 1, hasher := b.hasher ++ p, data := b.data ++ p }, ?_, ?_⟩
      · unfold TorrentInfoBuilder.push
        rw [h5, h6, if_pos hlt]
        simp only [h4, hget, hl, ne_eq, not_true_eq_false, if_false, h6]
      · exact ⟨h1, by simp [h2], by simp [h3], h4, by simp [h5], h6, (goodPieces_snoc n ps p).2 ⟨h7, hlt, hl⟩⟩
    · refine .inr (.inl ⟨hlt, hl, ?_⟩)
      unfold TorrentInfoBuilder.push
      rw [h5, h6, if_pos hlt]
      simp only [h4, hget, ne_eq, hl, not_false_eq_true, if_true]
  · refine .inr (.inr ⟨by have := h7.1; omega, ?_⟩)
    unfold TorrentInfoBuilder.push
    rw [h5, h6, if_neg hlt]

theorem pushAll_collected (h : InfoHash) (n : Nat) (ps qs : List Bytes) (b : TorrentInfoBuilder) (hc : Collected h n ps b) :
    (GoodPieces n (ps ++ qs) → ∃ b', pushAll b qs = .ok b' ∧ Collected h n (ps ++ qs) b') ∧
    (∀ b', pushAll b qs = .ok b' → GoodPieces n (ps ++ qs)) := by
  induction qs generalizing ps b with
  | nil =>
    simp only [List.append_nil, pushAll]
    exact ⟨fun _ => ⟨b, rfl, hc⟩, fun _ _ => hc.2.2.2.2.2.2⟩
  | cons q qs ih =>
    have hassoc : ps ++ q :: qs = (ps ++ [q]) ++ qs := by simp
    rw [hassoc]
    rcases collected_push h n ps b hc q with ⟨hlt, hl, b', hb', hc'⟩ | ⟨hlt, hl, he⟩ | ⟨heq, he⟩
    · have := ih (ps ++ [q]) b' hc'
      simp only [pushAll, hb']
      exact this
    · have hno : ¬ GoodPieces n (ps ++ [q] ++ qs) := by
        intro hg
        have := hg.2 ps.length (by simp)
        rw [List.getElem_append_left (by simp)] at this
        simp at this
        exact hl this
      refine ⟨fun hg => absurd hg hno, fun b' hb' => ?_⟩
      simp only [pushAll] at hb'
      split at hb'
      · rename_i heq; rw [heq] at he; cases he
      · cases hb'
    · have hno : ¬ GoodPieces n (ps ++ [q] ++ qs) := by
        intro hg
        have := hg.1
        simp at this
        omega
      refine ⟨fun hg => absurd hg hno, fun b' hb' => ?_⟩
      simp only [pushAll] at hb'
      split at hb'
      · rename_i heq; rw [heq] at he; cases he
      · cases hb'

/-- **C11.** For every announced size (up to 20 MiB) and every sequence of pieces: all pushes succeed exactly if the
pieces are no more than there are and each has its size. -/
theorem push_accepts_iff (h : InfoHash) (n : BitVec 32) (b : TorrentInfoBuilder)
    (hb : TorrentInfoBuilder.new h n = .ok b) (ps : List Bytes) :
    (∃ b', pushAll b ps = .ok b') ↔ GoodPieces n.toNat ps := by
  have := pushAll_collected h n.toNat [] ps b (collected_new h n b hb)
  simp only [List.nil_append] at this
  constructor
  · rintro ⟨b', hb'⟩; exact this.2 b' hb'
  · intro hg; obtain ⟨b', hb', -⟩ := this.1 hg; exact ⟨b', hb'⟩

/-- The state reached by successful pushes. -/
theorem reach (h : InfoHash) (n : BitVec 32) (b : TorrentInfoBuilder) (hb : TorrentInfoBuilder.new h n = .ok b)
    (ps : List Bytes) (b' : TorrentInfoBuilder) (hb' : pushAll b ps = .ok b') : Collected h n.toNat ps b' := by
  have hg := (push_accepts_iff h n b hb ps).1 ⟨b', hb'⟩
  have := (pushAll_collected h n.toNat [] ps b (collected_new h n b hb)).1 (by simpa using hg)
  obtain ⟨b'', h1, h2⟩ := this
  rw [hb'] at h1; cases h1
  simpa using h2

/-- **C11.** After `k` accepted pieces the next piece asked for is `k`, until all are there. -/
theorem next_piece_spec (h : InfoHash) (n : BitVec 32) (b : TorrentInfoBuilder)
    (hb : TorrentInfoBuilder.new h n = .ok b) (ps : List Bytes) (b' : TorrentInfoBuilder) (hb' : pushAll b ps = .ok b') :
    b'.nextPiece = if ps.length < pieceCount n.toNat then some ps.length else none := by
  obtain ⟨-, -, -, -, h5, h6, -⟩ := reach h n b hb ps b' hb'
  unfold TorrentInfoBuilder.nextPiece
  rw [h5, h6]

/-- **C11.** The error for a piece that is not accepted. -/
theorem push_error_spec (h : InfoHash) (n : BitVec 32) (b : TorrentInfoBuilder)
    (hb : TorrentInfoBuilder.new h n = .ok b) (ps : List Bytes) (b' : TorrentInfoBuilder) (hb' : pushAll b ps = .ok b')
    (p : Bytes) :
    (b'.push p).2 =
      if ps.length = pieceCount n.toNat then .error .tooManyPieces
      else if p.length = pieceSize n.toNat ps.length then .ok ()
      else .error (.length ps.length (pieceSize n.toNat ps.length) p.length) := by
  rcases collected_push h n.toNat ps b' (reach h n b hb ps b' hb') p with ⟨hlt, hl, b'', hb'', -⟩ | ⟨hlt, hl, he⟩ | ⟨heq, he⟩
  · rw [if_neg (by omega), if_pos hl, hb'']
  · rw [if_neg (by omega), if_neg hl, he]
  · rw [if_pos heq, he]

/-- Total length of good pieces. -/
theorem goodPieces_length (n : Nat) (ps : List Bytes) (hg : GoodPieces n ps) :
    ps.flatten.length = ((List.range ps.length).map (pieceSize n)).sum := by
  rw [List.length_flatten]
  congr 1
  apply List.ext_getElem
  · simp
  · intro i h1 h2
    simp only [List.getElem_map, List.getElem_range]
    exact hg.2 i (by simpa using h1)

/-- **C12.** Whatever pieces were accepted: metadata is yielded exactly if all pieces are there, the data has the
announced size and the requested digest, and is one complete bencoded dictionary; it is returned byte for byte.
`sha1` is arbitrary. -/
theorem build_spec (sha1 : Bytes → Bytes) (h : InfoHash) (n : BitVec 32) (b : TorrentInfoBuilder)
    (hb : TorrentInfoBuilder.new h n = .ok b) (ps : List Bytes) (b' : TorrentInfoBuilder) (hb' : pushAll b ps = .ok b')
    (info : TorrentInfo) :
    b'.build sha1 = .ok info ↔
      info = ⟨h, ps.flatten⟩ ∧ ps.flatten.length = n.toNat ∧ sha1 ps.flatten = h.bytes ∧ IsInfoDict ps.flatten := by
  obtain ⟨h1, h2, h3, h4, h5, h6, h7⟩ := reach h n b hb ps b' hb'
  have hlen := goodPieces_length n.toNat ps h7
  rw [sum_prefix _ _ h7.1] at hlen
  have hfull : pieceCount n.toNat - ps.length > 0 ↔ ps.flatten.length ≠ n.toNat := by
    rw [hlen]; have := h7.1; unfold pieceCount at *; omega
  unfold TorrentInfoBuilder.build
  simp only [h5, h6, h2, h3, h1]
  split
  · rename_i hl
    simp only [reduceCtorEq, false_iff]
    rintro ⟨-, h8, -⟩
    exact hfull.1 hl h8
  · rename_i hl
    have hl' : ps.flatten.length = n.toNat := by
      by_cases hx : ps.flatten.length = n.toNat
      · exact hx
      · exact absurd (hfull.2 hx) hl
    split
    · rename_i hs
      simp only [reduceCtorEq, false_iff]
      rintro ⟨-, -, h9, -⟩
      exact hs h9
    · rename_i hs
      have hs' : sha1 ps.flatten = h.bytes := by simpa using hs
      have hck := checkBencodeDict_spec ps.flatten
      cases hcb : checkBencodeDict ps.flatten with
      | error e =>
        rw [hcb] at hck
        simp only [reduceCtorEq, false_iff] at hck ⊢
        rintro ⟨-, -, -, h10⟩
        exact hck h10
      | ok u =>
        have : IsInfoDict ps.flatten := hck.1 hcb
        simp only [Except.ok.injEq]
        constructor
        · rintro rfl; exact ⟨rfl, hl', hs', this⟩
        · rintro ⟨rfl, -⟩; rfl

/-- **C12.** The errors of `build`, in order of precedence. -/
theorem build_error_spec (sha1 : Bytes → Bytes) (h : InfoHash) (n : BitVec 32) (b : TorrentInfoBuilder)
    (hb : TorrentInfoBuilder.new h n = .ok b) (ps : List Bytes) (b' : TorrentInfoBuilder) (hb' : pushAll b ps = .ok b')
    (e : BuildError) (he : b'.build sha1 = .error e) :
    match e with
    | .notFinished left => left = pieceCount n.toNat - ps.length ∧ 0 < left
    | .digest expected got => ps.length = pieceCount n.toNat ∧ expected = h ∧ got = sha1 ps.flatten ∧ got ≠ h.bytes
    | .bencode c => ps.length = pieceCount n.toNat ∧ sha1 ps.flatten = h.bytes ∧ checkBencodeDict ps.flatten = .error c := by
  obtain ⟨h1, h2, h3, h4, h5, h6, h7⟩ := reach h n b hb ps b' hb'
  unfold TorrentInfoBuilder.build at he
  simp only [h5, h6, h2, h3, h1] at he
  have hle := h7.1
  split at he
  · cases he; exact ⟨rfl, by omega⟩
  · split at he
    · rename_i hs
      cases he; exact ⟨by omega, rfl, rfl, hs⟩
    · rename_i hs
      cases hcb : checkBencodeDict ps.flatten with
      | error c => rw [hcb] at he; cases he; exact ⟨by omega, by simpa using hs, rfl⟩
      | ok u => rw [hcb] at he; cases he

/-- Any sequence of pushes, errors ignored. -/
def pushAny (b : TorrentInfoBuilder) (ps : List Bytes) : TorrentInfoBuilder :=
  ps.foldl (fun b p => (b.push p).1) b

/-- **C12.** Even if errors are ignored, what is built has the requested digest and is one complete dictionary. -/
theorem build_sound_any (sha1 : Bytes → Bytes) (h : InfoHash) (n : BitVec 32) (b : TorrentInfoBuilder)
    (hb : TorrentInfoBuilder.new h n = .ok b) (ps : List Bytes) (info : TorrentInfo)
    (hi : (pushAny b ps).build sha1 = .ok info) :
    info.infoHash = h ∧ sha1 info.data = h.bytes ∧ IsInfoDict info.data := by
  have inv : ∀ ps b, b.infoHash = h → b.hasher = b.data →
      (pushAny b ps).infoHash = h ∧ (pushAny b ps).hasher = (pushAny b ps).data := by
    intro ps
    induction ps with
    | nil => intro b h1 h2; exact ⟨h1, h2⟩
    | cons p ps ih =>
      intro b h1 h2
      apply ih
      · show (b.push p).1.infoHash = h
        unfold TorrentInfoBuilder.push
        split
        · simp only
          split
          · exact h1
          · split <;> exact h1
        · exact h1
      · show (b.push p).1.hasher = (b.push p).1.data
        unfold TorrentInfoBuilder.push
        split
        · simp only
          split
          · exact h2
          · split
            · exact h2
            · simp [h2]
        · exact h2
  obtain ⟨h1, h2, h3, -⟩ := collected_new h n b hb
  obtain ⟨i1, i2⟩ := inv ps b h1 (by rw [h2, h3])
  unfold TorrentInfoBuilder.build at hi
  simp only at hi
  split at hi
  · cases hi
  · split at hi
    · cases hi
    · rename_i hs
      split at hi
      · cases hi
      · rename_i hc
        cases hi
        refine ⟨i1, ?_, (checkBencodeDict_spec _).1 hc⟩
        rw [i2, i1] at hs
        simpa using hs

/-- A zeroed info hash for the examples. -/
def hash0 : InfoHash := ⟨List.replicate 20 0, by decide⟩

/-- The caller must stop at an error: `push` consumes the index of a piece of the wrong length, so that ignoring the
error can yield metadata shorter than announced. -/
theorem push_error_must_stop :
    ∃ (b : TorrentInfoBuilder) (ps : List Bytes) (info : TorrentInfo),
      TorrentInfoBuilder.new hash0 16386 = .ok b ∧
      (pushAny b ps).build (fun _ => List.replicate 20 0) = .ok info ∧ info.data.length = 2 := by
  refine ⟨⟨hash0, [], [], [16384, 2], 0, 2⟩, [[], [100, 101]], ⟨hash0, [100, 101]⟩, ?_, ?_, rfl⟩
  · rfl
  · have h : checkBencodeDict [100, 101] = .ok () := by decide +kernel
    have e : pushAny ⟨hash0, [], [], [16384, 2], 0, 2⟩ [[], [100, 101]] =
        ⟨hash0, [100, 101], [100, 101], [16384, 2], 2, 2⟩ := by decide +kernel
    rw [e]
    simp [TorrentInfoBuilder.build, h, hash0]

theorem goodPieces_example (p : Bytes) (hp : p.length = 16384) : GoodPieces 16386 [p, [1, 2]] := by
  refine ⟨by show 2 ≤ 2; omega, fun i hi => ?_⟩
  match i, hi with
  | 0, _ => exact hp
  | 1, _ => rfl
example : ∃ p, GoodPieces 16386 [p, [1, 2]] := ⟨List.replicate 16384 0, goodPieces_example _ List.length_replicate⟩
example : pieceCount 0 = 0 ∧ pieceCount 16384 = 1 ∧ pieceCount 16385 = 2 := by decide

/-! ### The name -/

/-- The name a torrent's metadata gives itself: the byte string under `name`, if any. -/
def NameOf (kvs : List (Bytes × Ben)) : Option Bytes :=
  match Spec.lookup (keyBytes "name") kvs with
  | some (.bytes b) => some b
  | _ => none

/-- **C12.** On metadata that was built, looking up the name never panics and finds the `name` entry. -/
theorem name_spec (lossy : Bytes → Text) (h : InfoHash) (kvs : List (Bytes × Ben))
    (hc : Canonical (.dict kvs)) (hd : depth (.dict kvs) ≤ 2048) :
    TorrentInfo.name lossy ⟨h, benc (.dict kvs)⟩ = some ((NameOf kvs).map lossy) := by
  have hp := (parseObject_iff bendyDefaultDepth (benc (.dict kvs)) (.dict kvs) []).2 ⟨by simp, hc, hd⟩
  unfold TorrentInfo.name NameOf Spec.lookup
  simp only [hp]
  have hk : keyBytes "name" = [110, 97, 109, 101] := by decide
  rw [hk]
  have hf : (kvs.find? fun kv => decide (kv.1 = [110, 97, 109, 101])) =
      kvs.find? (fun kv => kv.1 == ([110, 97, 109, 101] : Bytes)) := by
    congr 1
    funext kv
    by_cases hkv : kv.1 = [110, 97, 109, 101] <;> simp [hkv]
  rw [hf]
  cases hq : kvs.find? (fun kv => kv.1 == ([110, 97, 109, 101] : Bytes)) with
  | none => rfl
  | some kv =>
    obtain ⟨k, v⟩ := kv
    cases v <;> rfl

/-! ### The torrent file -/

/-- A node as the torrent file lists it. -/
def nodeBen (ipText : IpAddr → Text) (a : SockAddr) : Ben := .list [.bytes (utf8 (ipText a.ip)), .int a.port.toNat]

/-- The dictionary a torrent file must hold. -/
def torrentDict (ipText : IpAddr → Text) (info : Ben) (trackers : List Text) (nodes : List SockAddr) (date : Int)
    (by' : Text) : List (Bytes × Ben) :=
  (if trackers = [] then [] else
    [(keyBytes "announce-list", .list (trackers.map fun t => .list [.bytes (utf8 t)]))]) ++
  [(keyBytes "created by", .bytes (utf8 by')),
   (keyBytes "creation date", .int date),
   (keyBytes "info", info)] ++
  (if nodes = [] then [] else [(keyBytes "nodes", .list (nodes.map (nodeBen ipText)))])

theorem key_announce : utf8 "announce-list".toList = keyBytes "announce-list" := by decide +kernel
theorem key_created : utf8 "created by".toList = keyBytes "created by" := by decide +kernel
theorem key_date : utf8 "creation date".toList = keyBytes "creation date" := by decide +kernel
theorem key_info : utf8 "info".toList = keyBytes "info" := by decide +kernel
theorem key_nodes : utf8 "nodes".toList = keyBytes "nodes" := by decide +kernel

theorem encodeNodeAddr_eq (ipText : IpAddr → Text) (a : SockAddr) :
    encodeNodeAddr ipText a = benc (nodeBen ipText a) := by
  unfold encodeNodeAddr nodeBen
  rw [emitBytes_eq, emitNat_eq]
  exact emitList_eq [.bytes (utf8 (ipText a.ip)), .int a.port.toNat]

theorem announce_eq (trs : List Text) :
    emitList (trs.map fun tr => emitList [emitBytes (utf8 tr)]) = benc (.list (trs.map fun t => .list [.bytes (utf8 t)])) := by
  rw [← emitList_eq, List.map_map]
  congr 1
  apply List.map_congr_left
  intro t _
  rw [emitBytes_eq]
  exact emitList_eq [.bytes (utf8 t)]

theorem nodes_eq (ipText : IpAddr → Text) (ns : List SockAddr) :
    emitList (ns.map (encodeNodeAddr ipText)) = benc (.list (ns.map (nodeBen ipText))) := by
  rw [← emitList_eq, List.map_map]
  congr 1
  apply List.map_congr_left
  intro t _
  exact encodeNodeAddr_eq ipText t

/-- **C13.** The torrent file is the encoding of the dictionary with exactly these entries, the info entry being the
metadata verbatim. -/
theorem torrentFile_dict (ipText : IpAddr → Text) (t : TorrentFile) (info : Ben) (hi : t.info.data = benc info) :
    t.toBytes ipText = benc (.dict (torrentDict ipText info t.trackers t.nodes t.creationDate.toInt t.createdBy)) := by
  unfold TorrentFile.toBytes torrentDict putKv
  rw [key_announce, key_created, key_date, key_info, key_nodes, announce_eq, nodes_eq, hi, emitInt_eq]
  simp only [benc, bencDict_eq, emitBytes_eq]
  by_cases h1 : t.trackers = [] <;> by_cases h2 : t.nodes = [] <;>
    simp [h1, h2, List.isEmpty_iff, benc, List.append_assoc]

theorem canonicalList_of_forall {vs : List Ben} (h : ∀ v ∈ vs, Canonical v) : CanonicalList vs := by
  induction vs with
  | nil => exact trivial
  | cons v vs ih =>
    exact ⟨h v (List.mem_cons_self ..), ih fun x hx => h x (List.mem_cons_of_mem _ hx)⟩

theorem depthList_le {vs : List Ben} {d : Nat} (h : ∀ v ∈ vs, depth v ≤ d) : depthList vs ≤ d := by
  induction vs with
  | nil => exact Nat.zero_le _
  | cons v vs ih =>
    exact Nat.max_le.2 ⟨h v (List.mem_cons_self ..), ih fun x hx => h x (List.mem_cons_of_mem _ hx)⟩

/-- **C13.** The keys are in the required order and the file is canonical bencode if the metadata is. -/
theorem torrentFile_canonical (ipText : IpAddr → Text) (info : Ben) (hc : Canonical info) (trs : List Text)
    (ns : List SockAddr) (date : Int) (by' : Text) :
    Canonical (.dict (torrentDict ipText info trs ns date by')) := by
  have c1 : CanonicalList (trs.map fun t => Ben.list [.bytes (utf8 t)]) := by
    apply canonicalList_of_forall
    intro v hv
    obtain ⟨t, -, rfl⟩ := List.mem_map.1 hv
    exact ⟨trivial, trivial⟩
  have c2 : CanonicalList (ns.map (nodeBen ipText)) := by
    apply canonicalList_of_forall
    intro v hv
    obtain ⟨t, -, rfl⟩ := List.mem_map.1 hv
    exact ⟨trivial, trivial, trivial⟩
  have l1 : bytesLt (keyBytes "announce-list") (keyBytes "created by") = true := by decide
  have l2 : bytesLt (keyBytes "created by") (keyBytes "creation date") = true := by decide
  have l3 : bytesLt (keyBytes "creation date") (keyBytes "info") = true := by decide
  have l4 : bytesLt (keyBytes "info") (keyBytes "nodes") = true := by decide
  unfold torrentDict
  by_cases h1 : trs = [] <;> by_cases h2 : ns = [] <;>
    simp [h1, h2, Canonical, CanonicalDict, SortedKeys, l1, l2, l3, l4, hc, c1, c2]

/-- Nesting of the torrent file. -/
theorem torrentDict_depth (ipText : IpAddr → Text) (info : Ben) (trs : List Text)
    (ns : List SockAddr) (date : Int) (by' : Text) :
    depth (.dict (torrentDict ipText info trs ns date by')) ≤ max (depth info) 2 + 1 := by
  have c1 : depthList (trs.map fun t => Ben.list [.bytes (utf8 t)]) ≤ 1 := by
    apply depthList_le
    intro v hv
    obtain ⟨t, -, rfl⟩ := List.mem_map.1 hv
    simp [depth, depthList]
  have c2 : depthList (ns.map (nodeBen ipText)) ≤ 1 := by
    apply depthList_le
    intro v hv
    obtain ⟨t, -, rfl⟩ := List.mem_map.1 hv
    simp [nodeBen, depth, depthList]
  unfold torrentDict
  by_cases h1 : trs = [] <;> by_cases h2 : ns = [] <;>
    simp [h1, h2, depth, depthDict] <;> omega

/-- **C13.** A reader with the same nesting limit accepts the file and finds exactly the written entries, for metadata
nested up to 2047 levels. -/
theorem torrentFile_reads (ipText : IpAddr → Text) (t : TorrentFile) (info : Ben) (hi : t.info.data = benc info)
    (hc : Canonical info) (hd : depth info ≤ 2047) (v : Ben) (r : Bytes) :
    parseObject 2048 (t.toBytes ipText) = some (v, r) ↔
      v = .dict (torrentDict ipText info t.trackers t.nodes t.creationDate.toInt t.createdBy) ∧ r = [] := by
  have hp := (parseObject_iff 2048 (t.toBytes ipText)
    (.dict (torrentDict ipText info t.trackers t.nodes t.creationDate.toInt t.createdBy)) []).2
    ⟨by simp [torrentFile_dict ipText t info hi], torrentFile_canonical ipText info hc _ _ _ _,
      by have := torrentDict_depth ipText info t.trackers t.nodes t.creationDate.toInt t.createdBy; omega⟩
  rw [hp]
  constructor
  · intro h; cases h; exact ⟨rfl, rfl⟩
  · rintro ⟨rfl, rfl⟩; rfl

/-- **C13.** The metadata's bytes stand in the file unchanged, directly after the key `info`. -/
theorem torrentFile_verbatim (ipText : IpAddr → Text) (t : TorrentFile) :
    ∃ pre post, t.toBytes ipText = pre ++ encBytes (keyBytes "info") ++ t.info.data ++ post := by
  have he : emitBytes (keyBytes "info") = encBytes (keyBytes "info") := by rw [emitBytes_eq]; rfl
  unfold TorrentFile.toBytes
  rw [key_info, he, List.append_assoc _ _ [101]]
  exact ⟨_, _, rfl⟩

theorem torrentDict_depth_ge (ipText : IpAddr → Text) (info : Ben) (trs : List Text)
    (ns : List SockAddr) (date : Int) (by' : Text) :
    depth info + 1 ≤ depth (.dict (torrentDict ipText info trs ns date by')) := by
  unfold torrentDict
  by_cases h1 : trs = [] <;> by_cases h2 : ns = [] <;>
    simp [h1, h2, depth, depthDict] <;> omega

/-- The limit on the nesting in `torrentFile_reads` is sharp: metadata nested 2048 levels is accepted when it is
downloaded, but the torrent file made of it is one level deeper and the same reader refuses it. -/
theorem torrentFile_too_deep (ipText : IpAddr → Text) (t : TorrentFile) (info : Ben) (hi : t.info.data = benc info)
    (hc : Canonical info) (hd : 2048 ≤ depth info) : parseObject 2048 (t.toBytes ipText) = none := by
  cases hq : parseObject 2048 (t.toBytes ipText) with
  | none => rfl
  | some vr =>
    obtain ⟨v, r⟩ := vr
    obtain ⟨e1, e2, e3⟩ := (parseObject_iff _ _ _ _).1 hq
    have hge := torrentDict_depth_ge ipText info t.trackers t.nodes t.creationDate.toInt t.createdBy
    have q1 := (parseObject_iff (max 2048 (depth (.dict (torrentDict ipText info t.trackers t.nodes
      t.creationDate.toInt t.createdBy)))) _ _ _).2 ⟨e1, e2, by omega⟩
    have q2 := (parseObject_iff (max 2048 (depth (.dict (torrentDict ipText info t.trackers t.nodes
      t.creationDate.toInt t.createdBy)))) (t.toBytes ipText)
      (.dict (torrentDict ipText info t.trackers t.nodes t.creationDate.toInt t.createdBy)) []).2
      ⟨by rw [torrentFile_dict ipText t info hi]; simp, torrentFile_canonical ipText info hc _ _ _ _, by omega⟩
    rw [q1] at q2
    cases q2
    omega

/-- Nested lists. -/
def nest : Nat → Ben
  | 0 => .list []
  | n + 1 => .list [nest n]

theorem nest_spec (n : Nat) : depth (nest n) = n + 1 ∧ Canonical (nest n) := by
  induction n with
  | zero => exact ⟨rfl, trivial⟩
  | succ n ih => simp [nest, depth, depthList, Canonical, CanonicalList, ih]

theorem nest_dict (n : Nat) (h : n + 2 ≤ 2048) :
    depth (.dict [([97], nest n)]) = n + 2 ∧ Canonical (.dict [([97], nest n)]) ∧
      checkBencodeDict (benc (.dict [([97], nest n)])) = .ok () := by
  have h1 : depth (.dict [([97], nest n)]) = n + 2 := by simp [depth, depthDict, nest_spec]
  have h2 : Canonical (.dict [([97], nest n)]) := by simp [Canonical, CanonicalDict, SortedKeys, nest_spec]
  exact ⟨h1, h2, (checkBencodeDict_spec _).2 ⟨_, rfl, h2, h1 ▸ h⟩⟩

/-- Such metadata exists and passes the check made when it is downloaded. -/
theorem deep_info_accepted : ∃ info, depth info = 2048 ∧ Canonical info ∧ checkBencodeDict (benc info) = .ok () := by
  have : ∃ n, n + 2 = 2048 := ⟨2046, rfl⟩
  obtain ⟨n, hn⟩ := this
  have := nest_dict n (by omega)
  rw [hn] at this
  exact ⟨_, this⟩

/-- **C13.** The creation date is the clock's seconds since the epoch, clamped to 64 bits. -/
theorem creationDate_spec (s : Nat) :
    (unixNow (.ok s)).toInt = min (s : Int) (2 ^ 63 - 1) ∧
    (unixNow (.error s)).toInt = max (-(s : Int)) (-2 ^ 63) := by
  constructor
  · simp only [unixNow]
    split
    · rw [BitVec.toInt_ofNat']; simp only [Int.bmod]; omega
    · rename_i h
      have : (BitVec.ofInt 64 (2 ^ 63 - 1)).toInt = 2 ^ 63 - 1 := by decide
      rw [this]; omega
  · simp only [unixNow]
    split
    · rw [BitVec.toInt_ofInt]; simp only [Int.bmod]; omega
    · rename_i h
      have : (BitVec.ofInt 64 (-2 ^ 63)).toInt = -2 ^ 63 := by decide
      rw [this]; omega

example : (TorrentFile.new (.ok 1000) ⟨hash0, Spec.ascii "de"⟩ ["u".toList] []).toBytes (fun _ => []) =
    Spec.ascii "d13:announce-listll1:uee10:created by17:demagnetize 0.7.013:creation datei1000e4:infodee" := by
  decide +kernel
example : NameOf [(keyBytes "name", .bytes [65])] = some [65] := by decide

end Demag.Props
