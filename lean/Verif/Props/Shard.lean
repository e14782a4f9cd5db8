import Verif.Proofs.Sharding

/-!
# Properties C17–C21: shards and their checksum
-/

namespace Z5.Props
open Z5.Spec

/-! ## C20 -/

/-- C20: the table-driven loop computes the bit-serial CRC-32C. -/
theorem c20_crc_is_crc32c (m : Bytes) (seed : BitVec 32) : crc32c m seed = Spec.crc32c m seed :=
  crc32c_eq_spec m seed

/-- C20: continuing from a previous checksum equals checksumming the concatenation. -/
theorem c20_crc_incremental (a b : Bytes) (seed : BitVec 32) :
    crc32c b (crc32c a seed) = crc32c (a ++ b) seed := by
  unfold crc32c
  rw [BitVec.not_not, List.foldl_append]

/-- The standard check value: CRC-32C("123456789") = 0xE3069283. -/
example : Spec.crc32c [0x31, 0x32, 0x33, 0x34, 0x35, 0x36, 0x37, 0x38, 0x39] = 0xE3069283#32 := by
  decide +kernel
example : crc32c [0x31, 0x32, 0x33, 0x34, 0x35, 0x36, 0x37, 0x38, 0x39] = 0xE3069283#32 := by
  decide +kernel

/-! ## C17 -/

/-- C17: building a shard succeeds exactly when the file fits a `std::vector<char>`. -/
theorem c17_build_succeeds (blobs : List Bytes) :
    (∃ s, buildShard blobs = .ok s) ↔ blobs.flatten.length + 16 * blobs.length + 4 < 2 ^ 63 := by
  rw [buildShard_eq]; split <;> simp only [*, iff_true, iff_false] <;> simp

/-- C17: parsing a built shard accepts the index and gives back exactly the blobs; a slot is marked
empty exactly if its blob is empty. -/
theorem c17_shard_roundtrip {blobs : List Bytes} {s : Bytes} (h : buildShard blobs = .ok s) :
    ∃ entries, parseShardIndex s blobs.length = .ok (some entries) ∧
      extractShardBlobs s entries = .ok blobs ∧
      entries.map ShardEntry.empty = blobs.map fun b => decide (b = []) := by
  have := parse_build h
  refine ⟨_, this.1, this.2, buildEntries_empty _ _ ?_⟩
  have := (c17_build_succeeds blobs).1 ⟨s, h⟩
  rw [List.length_nil]; omega

example : (do let s ← buildShard [[1, 2, 3], [], [4], [], [5, 6]]; pure s.length) = .ok 90 := by
  decide +kernel

/-! ## C18 -/

/-- C18: parsing the index of an arbitrary byte string has no undefined behaviour.  It rejects the
string, or throws because the *requested* number of slots exceeds what a vector can hold, or yields
one entry per slot with every non-empty entry inside the data region; extracting the blobs is then
free of undefined behaviour too, and each blob is the announced byte range. -/
theorem c18_parse_safe (shard : Bytes) (nSlots : Nat) :
    parseShardIndex shard nSlots = .ok none ∨
    (parseShardIndex shard nSlots = .throw .lengthError ∧ 2 ^ 59 ≤ nSlots) ∨
    ∃ entries, parseShardIndex shard nSlots = .ok (some entries) ∧ entries.length = nSlots ∧
      16 * nSlots + 4 ≤ shard.length ∧
      (∀ e ∈ entries, e.empty = false → e.offset + e.nbytes ≤ shard.length - (16 * nSlots + 4)) ∧
      extractShardBlobs shard entries = .ok (entries.map fun e =>
        if e.empty then [] else (shard.drop e.offset).take e.nbytes) := by
  rcases parse_safe shard nSlots with h | h | ⟨es, h1, h2, _, h3, _, h4⟩
  · exact .inl h
  · exact .inr (.inl h)
  · refine .inr (.inr ⟨es, h1, h2, h3, ?_, ?_⟩)
    · intro e he hee
      rcases h4 e he with h | h
      · rw [h] at hee; simp at hee
      · exact h
    · apply extract_total
      intro e he
      rcases h4 e he with h | h
      · exact .inl h
      · exact .inr (by omega)

/-- an adversarial entry (offset 1, length 2^64 - 2) with a correct checksum is rejected -/
example : parseShardIndex
    ([7, 7, 7] ++ (leBytes 8 1 ++ leBytes 8 (2 ^ 64 - 2)) ++
      leBytes 4 (crc32c (leBytes 8 1 ++ leBytes 8 (2 ^ 64 - 2))).toNat) 1 = .ok none := by
  decide +kernel
/-- an entry of length 2 at offset 1 is accepted -/
example : parseShardIndex
    ([7, 7, 7] ++ (leBytes 8 1 ++ leBytes 8 2) ++
      leBytes 4 (crc32c (leBytes 8 1 ++ leBytes 8 2)).toNat) 1 = .ok (some [⟨1, 2⟩]) := by
  decide +kernel

/-- the `n` (offset, length) pairs of a shard index: little-endian 64-bit fields, one after the other -/
def indexEntries (index : Bytes) (n : Nat) : List ShardEntry :=
  (List.range n).map fun s =>
    ⟨leNat ((index.drop (16 * s)).take 8), leNat ((index.drop (16 * s + 8)).take 8)⟩

theorem parseEntries_exact (data index crc : Bytes) (m : Nat) (hi : index.length = 16 * m) :
    ∀ n s, s + n = m →
    let es := (List.range' s n).map fun s => (⟨leNat ((index.drop (16 * s)).take 8),
      leNat ((index.drop (16 * s + 8)).take 8)⟩ : ShardEntry)
    parseEntries (data ++ index ++ crc) data.length s n =
      if ∀ e ∈ es, e.offset = 2 ^ 64 - 1 ∨ e.nbytes = 2 ^ 64 - 1 ∨
        e.offset + e.nbytes ≤ data.length then .ok (some es) else .ok none
  | 0, s, _ => by simp [parseEntries]
  | n + 1, s, h => by
    have hsl : ∀ p, p + 8 ≤ index.length →
        slice (data ++ index ++ crc) (data.length + p) 8 = .ok ((index.drop p).take 8) := by
      intro p hp
      rw [slice_total (by simp only [List.length_append]; omega), List.append_assoc,
        List.drop_append, List.drop_eq_nil_of_le (by omega), List.nil_append,
        Nat.add_sub_cancel_left, List.drop_append_of_le_length (by omega),
        List.take_append_of_le_length (by rw [List.length_drop]; omega)]
    have ih := parseEntries_exact data index crc m hi n (s + 1) (by omega)
    intro es
    unfold parseEntries
    rw [hsl _ (by omega), Nat.add_assoc, hsl _ (by omega)]
    simp only [Res.ok_bind]
    dsimp only at ih
    rw [ih]
    have hes : es = (⟨leNat ((index.drop (16 * s)).take 8),
      leNat ((index.drop (16 * s + 8)).take 8)⟩ : ShardEntry) ::
      (List.range' (s + 1) n).map fun s => (⟨leNat ((index.drop (16 * s)).take 8),
      leNat ((index.drop (16 * s + 8)).take 8)⟩ : ShardEntry) := rfl
    rw [hes]
    generalize leNat ((index.drop (16 * s)).take 8) = o
    generalize leNat ((index.drop (16 * s + 8)).take 8) = b
    generalize (List.range' (s + 1) n).map _ = es'
    simp only [List.forall_mem_cons]
    have hem : ShardEntry.empty ⟨o, b⟩ = true ↔ o = 2 ^ 64 - 1 ∨ b = 2 ^ 64 - 1 := by
      unfold ShardEntry.empty shardEmpty
      rw [Bool.or_eq_true]
      exact or_congr decide_eq_true_iff decide_eq_true_iff
    generalize ShardEntry.empty ⟨o, b⟩ = em at hem ⊢
    by_cases hh : o = 2 ^ 64 - 1 ∨ b = 2 ^ 64 - 1 ∨ o + b ≤ data.length
    · refine (if_neg ?_).trans ?_
      · simp only [Bool.and_eq_true, Bool.not_eq_true', Bool.or_eq_true, decide_eq_true_eq]
        cases em <;> simp at hem ⊢ <;> omega
      by_cases ht : ∀ e ∈ es', e.offset = 2 ^ 64 - 1 ∨ e.nbytes = 2 ^ 64 - 1 ∨
          e.offset + e.nbytes ≤ data.length
      · rw [if_pos ht, if_pos ⟨hh, ht⟩]; rfl
      · rw [if_neg ht, if_neg fun h => ht h.2]; rfl
    · refine (if_pos ?_).trans (if_neg fun h => hh h.1).symm
      simp only [Bool.and_eq_true, Bool.not_eq_true', Bool.or_eq_true, decide_eq_true_eq]
      cases em <;> simp at hem ⊢ <;> omega

/-- C18: exactly which files are accepted, and what is returned: the last four bytes are the CRC-32C of
the index before them, and every entry has an all-ones field or lies inside the data region. -/
theorem c18_parse_exact (data index crc : Bytes) {n : Nat} (hi : index.length = 16 * n)
    (hc : crc.length = 4) (hn : n < 2 ^ 59) :
    parseShardIndex (data ++ index ++ crc) n =
      if (Spec.crc32c index).toNat = leNat crc ∧ ∀ e ∈ indexEntries index n,
        e.offset = 2 ^ 64 - 1 ∨ e.nbytes = 2 ^ 64 - 1 ∨ e.offset + e.nbytes ≤ data.length
      then .ok (some (indexEntries index n)) else .ok none := by
  have hw : wmul 16 n = 16 * n := wmul_eq (by omega)
  have hf : wadd (16 * n) 4 = 16 * n + 4 := wadd_eq (by omega)
  have hl : (data ++ index ++ crc).length = data.length + (16 * n + 4) := by
    simp only [List.length_append]; omega
  have he := parseEntries_exact data index crc n hi n 0 (by omega)
  unfold parseShardIndex
  dsimp only
  rw [hw, hf, if_neg (by omega), hl, slice_total (by omega), Nat.add_sub_cancel,
    slice_total (by omega)]
  simp only [Res.ok_bind]
  have e1 : ((data ++ index ++ crc).drop (data.length + (16 * n + 4) - 4)).take 4 = crc := by
    rw [List.drop_left' (by simp only [List.length_append]; omega), List.take_of_length_le (by omega)]
  have e2 : ((data ++ index ++ crc).drop data.length).take (16 * n) = index := by
    rw [List.append_assoc, List.drop_left' rfl, List.take_left' hi]
  rw [e1, e2, crc32c_eq_spec]
  by_cases h : (Spec.crc32c index).toNat = leNat crc
  · rw [if_neg (not_not_intro h), if_neg (by omega), he]
    simp only [h, true_and, indexEntries, List.range_eq_range']
  · rw [if_pos h, if_neg fun h' => h h'.1]; rfl

/-- C18: a file too short for its index is rejected. -/
theorem c18_too_short {shard : Bytes} {n : Nat} (hn : n < 2 ^ 59) (h : shard.length < 16 * n + 4) :
    parseShardIndex shard n = .ok none := by
  unfold parseShardIndex
  rw [show wmul 16 n = 16 * n from wmul_eq (by omega), show wadd (16 * n) 4 = 16 * n + 4 from
    wadd_eq (by omega), if_pos h]

/-- C18, deviation from the zarr sharding specification (and from the comment in util/sharding.hxx):
an entry with a single all-ones field counts as an empty slot, whatever the other field says. -/
theorem c18_half_empty_counterexample : ∃ shard entries,
    parseShardIndex shard 1 = .ok (some entries) ∧ entries = [⟨3, 2 ^ 64 - 1⟩] ∧
    extractShardBlobs shard entries = .ok [[]] :=
  ⟨leBytes 8 3 ++ leBytes 8 (2 ^ 64 - 1) ++
    leBytes 4 (crc32c (leBytes 8 3 ++ leBytes 8 (2 ^ 64 - 1))).toNat, _, by decide +kernel, rfl,
    by decide +kernel⟩

/-! ## C19 -/

/-- the bits of the index and its checksum, i.e. of the last `16 nSlots + 4` bytes of a shard -/
def footerBits (shard : Bytes) (nSlots : Nat) : List Bool :=
  messageBits (shard.drop (shard.length - (16 * nSlots + 4)))

theorem footer_split {s : Bytes} {n : Nat} (h : 16 * n + 4 ≤ s.length) :
    s.drop (s.length - (16 * n + 4)) =
      (s.drop (s.length - (16 * n + 4))).take (16 * n) ++ s.drop (s.length - 4) := by
  have := (List.take_append_drop (16 * n) (s.drop (s.length - (16 * n + 4)))).symm
  rw [List.drop_drop] at this
  rw [show s.length - (16 * n + 4) + 16 * n = s.length - 4 by omega] at this
  exact this

/-- C19: let an index be accepted, and let another file of the same length have a footer whose bits
differ from the accepted one only at positions in `[k, k + 32)`, and somewhere.  Then the altered
file is rejected (its data region may be anything). -/
theorem c19_burst_detected {shard shard' : Bytes} {nSlots : Nat} {entries : List ShardEntry}
    (hok : parseShardIndex shard nSlots = .ok (some entries))
    (hlen : shard'.length = shard.length) (k : Nat)
    (hwin : ∀ j, (footerBits shard' nSlots)[j]? ≠ (footerBits shard nSlots)[j]? → k ≤ j ∧ j < k + 32)
    (hne : footerBits shard' nSlots ≠ footerBits shard nSlots) :
    parseShardIndex shard' nSlots = .ok none := by
  rcases parse_safe shard nSlots with h | ⟨h, _⟩ | ⟨es, _, _, hn, hl, hc, _⟩
  · rw [h] at hok; simp at hok
  · rw [h] at hok; simp at hok
  · rcases parse_safe shard' nSlots with h' | ⟨_, h'⟩ | ⟨es', _, _, _, hl', hc', _⟩
    · exact h'
    · omega
    · exfalso
      apply hne
      unfold footerBits at *
      rw [footer_split hl, footer_split hl'] at hwin ⊢
      rw [codewords_differ (by rw [List.length_drop]; omega) (by rw [List.length_drop]; omega)
        (by simp only [List.length_take, List.length_drop]; omega) hc hc' k hwin]

/-- number of positions in which two bit lists differ -/
def hammingDistance (a b : List Bool) : Nat :=
  (List.zipWith (fun x y => x ^^ y) a b).count true

theorem parity_count : ∀ l : List Bool, parity l = decide (l.count true % 2 = 1)
  | [] => rfl
  | b :: l => by
    rw [parity, parity_count l, List.count_cons]
    cases b
    · simp
    · simp only [Bool.true_xor, BEq.rfl, if_true]
      rw [← decide_not, decide_eq_decide]
      omega

/-- C19 (more): any odd number of flipped footer bits, anywhere, is detected. -/
theorem c19_odd_detected {shard shard' : Bytes} {nSlots : Nat} {entries : List ShardEntry}
    (hok : parseShardIndex shard nSlots = .ok (some entries))
    (hlen : shard'.length = shard.length)
    (hodd : hammingDistance (footerBits shard' nSlots) (footerBits shard nSlots) % 2 = 1) :
    parseShardIndex shard' nSlots = .ok none := by
  rcases parse_safe shard nSlots with h | ⟨h, _⟩ | ⟨es, _, _, hn, hl, hc, _⟩
  · rw [h] at hok; simp at hok
  · rw [h] at hok; simp at hok
  · rcases parse_safe shard' nSlots with h' | ⟨_, h'⟩ | ⟨es', _, _, _, hl', hc', _⟩
    · exact h'
    · omega
    · exfalso
      unfold footerBits hammingDistance at hodd
      rw [footer_split hl, footer_split hl'] at hodd
      have := codewords_even (crc := shard.drop (shard.length - 4))
        (crc' := shard'.drop (shard'.length - 4)) (by rw [List.length_drop]; omega)
        (by rw [List.length_drop]; omega) (by simp only [List.length_take, List.length_drop]; omega)
        hc hc'
      rw [parity_count, decide_eq_false_iff_not] at this
      exact this hodd

/-- C19: only the stored checksum altered (any change of the last four bytes). -/
theorem c19_checksum_altered {data data' : Bytes} {index crc crc' : Bytes} {nSlots : Nat}
    {entries : List ShardEntry} (hi : index.length = 16 * nSlots) (hc : crc.length = 4)
    (hc' : crc'.length = 4) (hd : data'.length = data.length)
    (hok : parseShardIndex (data ++ index ++ crc) nSlots = .ok (some entries)) (hne : crc' ≠ crc) :
    parseShardIndex (data' ++ index ++ crc') nSlots = .ok none := by
  have e : ∀ d c : Bytes, c.length = 4 →
      (d ++ index ++ c).drop ((d ++ index ++ c).length - (16 * nSlots + 4)) = index ++ c := by
    intro d c hcl
    rw [List.append_assoc, List.drop_left']
    simp only [List.length_append, hi, hcl]; omega
  refine c19_burst_detected hok (by simp [hd, hc, hc']) (8 * (16 * nSlots)) ?_ ?_
  · intro j hj
    unfold footerBits at hj
    rw [e data crc hc, e data' crc' hc', messageBits_append, messageBits_append] at hj
    have hl : (messageBits index).length = 8 * (16 * nSlots) := by rw [length_messageBits, hi]
    rcases Nat.lt_or_ge j (8 * (16 * nSlots)) with h | h
    · rw [List.getElem?_append_left (by omega), List.getElem?_append_left (by omega)] at hj
      exact absurd rfl hj
    · refine ⟨h, ?_⟩
      rcases Nat.lt_or_ge j (8 * (16 * nSlots) + 32) with h2 | h2
      · exact h2
      · rw [List.getElem?_eq_none (by rw [List.length_append, length_messageBits, length_messageBits]; omega),
          List.getElem?_eq_none (by rw [List.length_append, length_messageBits, length_messageBits]; omega)] at hj
        exact absurd rfl hj
  · unfold footerBits
    rw [e data crc hc, e data' crc' hc']
    intro h
    exact hne (List.append_cancel_left (messageBits_inj h))

/-- C19: a shorter file is read only if its own last bytes pass the checksum: accepting means that
the checksum of the index region is the stored checksum. -/
theorem c19_accept_needs_checksum {shard : Bytes} {nSlots : Nat} {entries : List ShardEntry}
    (hok : parseShardIndex shard nSlots = .ok (some entries)) :
    ∃ data index crc : Bytes, shard = data ++ index ++ crc ∧ index.length = 16 * nSlots ∧
      crc.length = 4 ∧ (Spec.crc32c index).toNat = leNat crc := by
  rcases parse_safe shard nSlots with h | ⟨h, _⟩ | ⟨es, _, _, hn, hl, hc, _⟩
  · rw [h] at hok; simp at hok
  · rw [h] at hok; simp at hok
  · refine ⟨shard.take (shard.length - (16 * nSlots + 4)),
      (shard.drop (shard.length - (16 * nSlots + 4))).take (16 * nSlots),
      shard.drop (shard.length - 4), ?_, ?_, ?_, ?_⟩
    · rw [List.append_assoc, ← footer_split hl, List.take_append_drop]
    · simp only [List.length_take, List.length_drop]; omega
    · rw [List.length_drop]; omega
    · rw [← crc32c_eq_spec]; exact hc

/-- hypotheses of `c19_burst_detected` are satisfiable: one flipped bit in the index of a real shard -/
example : ((do
    let s ← buildShard [[1], []]
    let s' := s.set 3 0x10
    let r ← parseShardIndex s 2
    let r' ← parseShardIndex s' 2
    pure (r, decide (s'.length = s.length), hammingDistance (footerBits s' 2) (footerBits s 2), r')) :
      Res (Option (List ShardEntry) × Bool × Nat × Option (List ShardEntry))) =
    .ok (some [⟨0, 1⟩, ⟨shardEmpty, shardEmpty⟩], true, 1, none) := by
  decide +kernel

/-! ## C21 -/

/-- C21: for inner chunks tiling the shards exactly, the slot of an inner chunk is below the number of
slots, and the map from inner chunk coordinates to (shard, slot) is a bijection. -/
theorem c21_slot_bijection {shardShape innerShape : List Nat}
    (hdims : All₂ (fun S b => 0 < b ∧ 0 < S ∧ S % b = 0) shardShape innerShape)
    (hsize : prod (List.zipWith (· / ·) shardShape innerShape) < 2 ^ 64) :
    ∃ cps, chunksPerShard shardShape innerShape = .ok cps ∧ cps.length = innerShape.length ∧
      (∀ c : List Nat, c.length = innerShape.length →
        ∃ sid slot, shardId c cps = .ok sid ∧ shardSlot c cps = .ok slot ∧
          sid.length = innerShape.length ∧ slot < numShardSlots cps) ∧
      (∀ sid slot, sid.length = innerShape.length → slot < numShardSlots cps →
        ∃ c : List Nat, c.length = innerShape.length ∧ shardId c cps = .ok sid ∧
          shardSlot c cps = .ok slot ∧
          ∀ c' : List Nat, c'.length = innerShape.length → shardId c' cps = .ok sid →
            shardSlot c' cps = .ok slot → c' = c) := by
  obtain ⟨h1, hp, hl⟩ := chunksPerShard_eq hdims
  refine ⟨_, h1, hl, ?_, ?_⟩
  · intro c hc
    refine ⟨_, _, shardId_eq (by omega) hp, shardSlot_eq (by omega) hp hsize, ?_, ?_⟩
    · rw [List.length_zipWith]; omega
    · rw [numShardSlots_eq hsize]
      exact ravel_lt (inBox_mod (by omega) hp)
  · intro sid slot hs hslot
    rw [numShardSlots_eq hsize] at hslot
    have hb := unravel_inBox slot hp
    obtain ⟨d1, d2, d3⟩ := divmod_mk (sid := sid) (by omega) hb
    refine ⟨_, by rw [d3, hl], by rw [shardId_eq d3 hp, d1], ?_, ?_⟩
    · rw [shardSlot_eq d3 hp hsize, d2, ravel_unravel hslot]
    · intro c' hc' hsid hsl
      rw [shardId_eq (by omega) hp] at hsid
      rw [shardSlot_eq (by omega) hp hsize] at hsl
      injection hsid with hsid
      injection hsl with hsl
      refine divmod_inj (by omega) d3 (by rw [hsid, d1]) ?_
      rw [d2, ← hsl, unravel_ravel (inBox_mod (by omega) hp)]

/-- C21: the shard of an inner chunk contains its elements: the shard coordinate computed for the
inner chunk of element `x` is the shard-grid cell of `x`. -/
theorem c21_shard_contains_chunk {shardShape innerShape x : List Nat}
    (hdims : All₂ (fun S b => 0 < b ∧ 0 < S ∧ S % b = 0) shardShape innerShape)
    (hx : x.length = innerShape.length) :
    ∃ cps, chunksPerShard shardShape innerShape = .ok cps ∧
      shardId (List.zipWith (· / ·) x innerShape) cps = .ok (List.zipWith (· / ·) x shardShape) := by
  obtain ⟨h1, hp, hl⟩ := chunksPerShard_eq hdims
  refine ⟨_, h1, ?_⟩
  rw [shardId_eq (by rw [List.length_zipWith]; omega) hp, div_div_multiple hx hdims]

example : All₂ (fun S b => 0 < b ∧ 0 < S ∧ S % b = 0) [64, 32, 12] [16, 32, 4] ∧
    prod (List.zipWith (· / ·) [64, 32, 12] [16, 32, 4]) < 2 ^ 64 ∧
    shardSlot [6, 3, 5] [4, 1, 3] = .ok 8 ∧ shardId [6, 3, 5] [4, 1, 3] = .ok [1, 3, 1] := by
  decide

/-- With a shard shape that is not a multiple of the inner chunk shape (not rejected when opening a
dataset) two inner chunk coordinates of the same shard cell can land in different shards: the
containment fails. -/
theorem c21_non_multiple_counterexample :
    chunksPerShard [10] [4] = .ok [2] ∧
      shardId (List.zipWith (· / ·) [8] [4]) [2] = .ok [1] ∧ List.zipWith (· / ·) [8] [10] = [0] := by
  decide

end Z5.Props
