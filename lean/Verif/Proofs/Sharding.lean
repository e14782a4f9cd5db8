import Verif.Model.Sharding
import Verif.Proofs.Crc32c
import Verif.Proofs.Blocking

/-! # Lemmas about shards -/

namespace Z5
open Spec

/-! ## building -/

theorem buildEntries_out : ∀ (bs : List Bytes) (out : Bytes),
    (buildEntries bs out).2 = out ++ bs.flatten
  | [], out => by simp [buildEntries]
  | b :: bs, out => by
    unfold buildEntries
    by_cases h : b = []
    · simp only [h, if_true]
      rw [buildEntries_out bs out]; simp
    · simp only [h, if_false]
      rw [buildEntries_out bs (out ++ b)]; simp

theorem buildEntries_length : ∀ (bs : List Bytes) (out : Bytes),
    (buildEntries bs out).1.length = bs.length
  | [], _ => rfl
  | b :: bs, out => by
    unfold buildEntries
    by_cases h : b = []
    · simp only [h, if_true, List.length_cons, buildEntries_length bs out]
    · simp only [h, if_false, List.length_cons, buildEntries_length bs (out ++ b)]

theorem length_indexBytes : ∀ es : List ShardEntry, (indexBytes es).length = 16 * es.length
  | [] => rfl
  | e :: es => by
    have := length_indexBytes es
    unfold indexBytes at this ⊢
    rw [List.flatMap_cons, List.length_append, this]
    simp only [List.length_append, length_leBytes, List.length_cons]; omega

theorem buildShard_eq (bs : List Bytes) :
    buildShard bs =
      if bs.flatten.length + 16 * bs.length + 4 < 2 ^ 63 then
        .ok (bs.flatten ++ indexBytes (buildEntries bs []).1 ++
          leBytes 4 (crc32c (indexBytes (buildEntries bs []).1)).toNat)
      else .throw .lengthError := by
  unfold buildShard
  simp only [buildEntries_out, List.nil_append, List.length_append, length_indexBytes,
    buildEntries_length, length_leBytes]

/-! ## parsing what was built -/

/-- an entry of an index after `dataLen` bytes of chunks -/
def EntryOk (dataLen : Nat) (e : ShardEntry) : Prop :=
  (e.offset = shardEmpty ∧ e.nbytes = shardEmpty) ∨
    (e.offset + e.nbytes ≤ dataLen ∧ e.offset < 2 ^ 64 ∧ e.nbytes < 2 ^ 64)

theorem buildEntries_ok (N : Nat) (hN : N < 2 ^ 63) : ∀ (bs : List Bytes) (out : Bytes),
    out.length + bs.flatten.length ≤ N → ∀ e ∈ (buildEntries bs out).1, EntryOk N e
  | [], _, _, e, he => by simp [buildEntries] at he
  | b :: bs, out, h, e, he => by
    unfold buildEntries at he
    simp only [List.flatten_cons, List.length_append] at h
    by_cases hb : b = []
    · simp only [hb, if_true, List.mem_cons] at he
      rcases he with rfl | he
      · exact .inl ⟨rfl, rfl⟩
      · exact buildEntries_ok N hN bs out (by omega) e he
    · simp only [hb, if_false, List.mem_cons] at he
      rcases he with rfl | he
      · exact .inr ⟨by dsimp only; omega, by dsimp only; omega, by dsimp only; omega⟩
      · exact buildEntries_ok N hN bs (out ++ b) (by rw [List.length_append]; omega) e he

theorem entryOk_lt {N e} (h : EntryOk N e) : e.offset < 256 ^ 8 ∧ e.nbytes < 256 ^ 8 := by
  rcases h with ⟨h1, h2⟩ | ⟨h1, h2⟩
  · rw [h1, h2]; decide
  · constructor <;> omega

theorem entryOk_test {N e} (h : EntryOk N e) :
    (!e.empty && (decide (e.offset > N) || decide (e.nbytes > N - e.offset))) = false := by
  rcases h with ⟨h1, h2⟩ | ⟨h1, h2⟩
  · simp [ShardEntry.empty, h1]
  · simp; intro _; omega

theorem drop_add_of_drop {b x y : Bytes} {p n : Nat} (h : b.drop p = x ++ y) (hx : x.length = n) :
    b.drop (p + n) = y := by
  rw [← List.drop_drop, h, List.drop_left' hx]

theorem slice_of_drop {b x y : Bytes} {p n : Nat} (h : b.drop p = x ++ y) (hx : x.length = n)
    (hp : p ≤ b.length) : slice b p n = .ok x := by
  rw [slice_eq_ok]
  constructor
  · have := congrArg List.length h
    rw [List.length_drop, List.length_append, hx] at this
    omega
  · rw [h, List.take_left' hx]

theorem parseEntries_ok (shard post : Bytes) (N : Nat) : ∀ (es : List ShardEntry) (s : Nat),
    (∀ e ∈ es, EntryOk N e) → N + 16 * s ≤ shard.length →
    shard.drop (N + 16 * s) = indexBytes es ++ post →
    parseEntries shard N s es.length = .ok (some es)
  | [], _, _, _, _ => rfl
  | e :: es, s, hes, hle, hd => by
    have hb : e.offset < 256 ^ 8 ∧ e.nbytes < 256 ^ 8 := entryOk_lt (hes e (List.mem_cons_self ..))
    have hd' : shard.drop (N + 16 * s) =
        leBytes 8 e.offset ++ (leBytes 8 e.nbytes ++ (indexBytes es ++ post)) := by
      rw [hd]; simp [indexBytes]
    have hl := congrArg List.length hd'
    rw [List.length_drop, List.length_append, List.length_append, length_leBytes,
      length_leBytes] at hl
    have hd2 := drop_add_of_drop hd' (length_leBytes ..)
    have hd3 := drop_add_of_drop hd2 (length_leBytes ..)
    have s1 := slice_of_drop hd' (length_leBytes ..) hle
    have s2 := slice_of_drop hd2 (length_leBytes ..) (by omega)
    have ih := parseEntries_ok shard post N es (s + 1) (fun e he => hes e (List.mem_cons_of_mem _ he))
      (by omega) (by rw [← hd3]; congr 1)
    rw [List.length_cons, parseEntries, s1, s2]
    simp only [Res.ok_bind, leNat_leBytes, Nat.mod_eq_of_lt hb.1, Nat.mod_eq_of_lt hb.2]
    have ht : (!ShardEntry.empty { offset := e.offset, nbytes := e.nbytes } &&
        (decide (e.offset > N) || decide (e.nbytes > N - e.offset))) = false :=
      entryOk_test (hes e (List.mem_cons_self ..))
    rw [ht, ih]
    rfl

theorem extract_ok (shard : Bytes) : ∀ (bs : List Bytes) (out rest : Bytes),
    shard.length < 2 ^ 63 → shard = out ++ (bs.flatten ++ rest) →
    extractShardBlobs shard (buildEntries bs out).1 = .ok bs
  | [], _, _, _, _ => rfl
  | b :: bs, out, rest, hl, h => by
    unfold buildEntries
    by_cases hb : b = []
    · subst hb
      simp only [if_true, extractShardBlobs]
      rw [extract_ok shard bs out rest hl (by rw [h]; simp)]
      simp [ShardEntry.empty]
    · simp only [hb, if_false, extractShardBlobs]
      rw [extract_ok shard bs (out ++ b) rest hl (by rw [h]; simp)]
      have hlen := congrArg List.length h
      simp only [List.length_append, List.flatten_cons] at hlen
      have he : (ShardEntry.empty { offset := out.length, nbytes := b.length }) = false := by
        have h1 : out.length ≠ shardEmpty := by unfold shardEmpty; omega
        have h2 : b.length ≠ shardEmpty := by unfold shardEmpty; omega
        simp [ShardEntry.empty, h1, h2]
      have hsl : slice shard out.length b.length = .ok b := by
        apply slice_of_drop (y := bs.flatten ++ rest) _ rfl (by omega)
        rw [h, List.drop_left]; simp
      rw [he]
      simp [hsl]

theorem footer_eq {n : Nat} (h : n < 2 ^ 59) : wadd (wmul 16 n) 4 = 16 * n + 4 := by
  rw [wmul_eq (by omega), wadd_eq (by omega)]

/-- the index of a shard that is laid out as the format says -/
theorem parse_layout {data : Bytes} {es : List ShardEntry} {s : Bytes} (hn : es.length < 2 ^ 59)
    (he : ∀ e ∈ es, EntryOk data.length e)
    (h : s = data ++ indexBytes es ++ leBytes 4 (crc32c (indexBytes es)).toNat) :
    parseShardIndex s es.length = .ok (some es) := by
  have hil := length_indexBytes es
  have hsl : s.length = data.length + 16 * es.length + 4 := by
    rw [h]; simp only [List.length_append, hil, length_leBytes]
  unfold parseShardIndex
  simp only [footer_eq hn]
  rw [if_neg (by omega)]
  have d1 : s.drop data.length = indexBytes es ++ leBytes 4 (crc32c (indexBytes es)).toNat := by
    rw [h, List.append_assoc, List.drop_left]
  have d2 := drop_add_of_drop d1 hil
  have e1 : s.length - (16 * es.length + 4) = data.length := by omega
  have e2 : s.length - 4 = data.length + 16 * es.length := by omega
  have s1 : slice s (s.length - 4) 4 = .ok (leBytes 4 (crc32c (indexBytes es)).toNat) := by
    rw [e2]
    exact slice_of_drop (y := []) (by rw [d2]; simp) (length_leBytes ..) (by omega)
  have s2 : slice s data.length (wmul 16 es.length) = .ok (indexBytes es) := by
    rw [wmul_eq (by omega)]
    exact slice_of_drop d1 hil (by omega)
  rw [s1, e1, s2]
  simp only [Res.ok_bind, leNat_leBytes]
  rw [Nat.mod_eq_of_lt (show _ < 256 ^ 4 from (crc32c _).isLt), if_neg (by simp), if_neg (by omega)]
  apply parseEntries_ok s (leBytes 4 (crc32c (indexBytes es)).toNat)
  · exact he
  · omega
  · rw [Nat.mul_zero, Nat.add_zero, d1]

theorem parse_build {bs : List Bytes} {s : Bytes} (h : buildShard bs = .ok s) :
    parseShardIndex s bs.length = .ok (some (buildEntries bs []).1) ∧
      extractShardBlobs s (buildEntries bs []).1 = .ok bs := by
  rw [buildShard_eq] at h
  split at h
  · rename_i hlt
    injection h with h
    constructor
    · have := parse_layout (by rw [buildEntries_length]; omega)
        (buildEntries_ok bs.flatten.length (by omega) bs [] (by simp)) h.symm
      rwa [buildEntries_length] at this
    · have hil : (indexBytes (buildEntries bs []).1).length = 16 * bs.length := by
        rw [length_indexBytes, buildEntries_length]
      have hsl : s.length = bs.flatten.length + 16 * bs.length + 4 := by
        rw [← h]; simp only [List.length_append, hil, length_leBytes]
      exact extract_ok s bs [] (indexBytes (buildEntries bs []).1 ++
        leBytes 4 (crc32c (indexBytes (buildEntries bs []).1)).toNat) (by omega)
        (by rw [← h]; simp)
  · exact absurd h (by simp)

theorem buildEntries_empty : ∀ (bs : List Bytes) (out : Bytes),
    out.length + bs.flatten.length < 2 ^ 63 →
    (buildEntries bs out).1.map ShardEntry.empty = bs.map fun b => decide (b = [])
  | [], _, _ => rfl
  | b :: bs, out, h => by
    unfold buildEntries
    simp only [List.flatten_cons, List.length_append] at h
    by_cases hb : b = []
    · subst hb
      simp only [if_true, List.map_cons]
      rw [buildEntries_empty bs out (by simpa using h)]
      simp [ShardEntry.empty]
    · simp only [hb, if_false, List.map_cons]
      rw [buildEntries_empty bs (out ++ b) (by rw [List.length_append]; omega)]
      have h1 : out.length ≠ shardEmpty := by unfold shardEmpty; omega
      have h2 : b.length ≠ shardEmpty := by unfold shardEmpty; omega
      simp [ShardEntry.empty, h1, h2, hb]

/-- an entry without a chunk has both numbers set to the mark -/
theorem buildEntries_absent : ∀ (bs : List Bytes) (out : Bytes),
    out.length + bs.flatten.length < 2 ^ 63 →
    ∀ e ∈ (buildEntries bs out).1, e.empty = true → e = ⟨shardEmpty, shardEmpty⟩
  | [], _, _, _, he, _ => by simp [buildEntries] at he
  | b :: bs, out, h, e, he, hem => by
    unfold buildEntries at he
    simp only [List.flatten_cons, List.length_append] at h
    by_cases hb : b = []
    · subst hb
      simp only [if_true, List.mem_cons] at he
      rcases he with rfl | he
      · rfl
      · exact buildEntries_absent bs out (by simpa using h) e he hem
    · simp only [hb, if_false, List.mem_cons] at he
      rcases he with rfl | he
      · have h1 : out.length ≠ shardEmpty := by unfold shardEmpty; omega
        have h2 : b.length ≠ shardEmpty := by unfold shardEmpty; omega
        simp [ShardEntry.empty, h1, h2] at hem
      · exact buildEntries_absent bs (out ++ b) (by rw [List.length_append]; omega) e he hem

/-! ## parsing arbitrary bytes -/

theorem slice_total {b : Bytes} {p n : Nat} (h : p + n ≤ b.length) :
    slice b p n = .ok ((b.drop p).take n) := by rw [slice, if_pos h]

theorem parseEntries_safe (shard : Bytes) (N : Nat) : ∀ (n s : Nat),
    N + 16 * (s + n) ≤ shard.length →
    parseEntries shard N s n = .ok none ∨
      ∃ es, parseEntries shard N s n = .ok (some es) ∧ es.length = n ∧
        ∀ e ∈ es, e.empty = true ∨ e.offset + e.nbytes ≤ N
  | 0, _, _ => .inr ⟨[], rfl, rfl, by simp⟩
  | n + 1, s, h => by
    unfold parseEntries
    rw [slice_total (by omega), slice_total (by omega)]
    simp only [Res.ok_bind]
    split
    · exact .inl rfl
    · rename_i hc
      rcases parseEntries_safe shard N n (s + 1) (by omega) with hr | ⟨es, hr, hl, hes⟩
      · exact .inl (by rw [hr]; rfl)
      · refine .inr ⟨_ :: es, by rw [hr]; rfl, by simp [hl], ?_⟩
        intro e he
        rcases List.mem_cons.1 he with rfl | he
        · simp only [Bool.and_eq_true, Bool.not_eq_true', Bool.or_eq_true, decide_eq_true_eq] at hc
          rcases Bool.eq_false_or_eq_true (ShardEntry.empty _) with hc1 | hc1
          · exact .inl hc1
          · right
            have hc2 := not_or.1 (fun h => hc ⟨hc1, h⟩)
            dsimp only; omega
        · exact hes e he

theorem extract_total (shard : Bytes) : ∀ (es : List ShardEntry),
    (∀ e ∈ es, e.empty = true ∨ e.offset + e.nbytes ≤ shard.length) →
    extractShardBlobs shard es = .ok (es.map fun e =>
      if e.empty then [] else (shard.drop e.offset).take e.nbytes)
  | [], _ => rfl
  | e :: es, h => by
    unfold extractShardBlobs
    rw [extract_total shard es fun e he => h e (List.mem_cons_of_mem _ he)]
    rcases h e (List.mem_cons_self ..) with he | he
    · simp [he]
    · by_cases hh : e.empty = true
      · simp [hh]
      · simp [hh, slice_total he]

/-- all results of parsing an index -/
theorem parse_safe (shard : Bytes) (n : Nat) :
    parseShardIndex shard n = .ok none ∨
    (parseShardIndex shard n = .throw .lengthError ∧ 2 ^ 59 ≤ n) ∨
    ∃ es, parseShardIndex shard n = .ok (some es) ∧ es.length = n ∧ n < 2 ^ 59 ∧
      16 * n + 4 ≤ shard.length ∧
      (crc32c ((shard.drop (shard.length - (16 * n + 4))).take (16 * n))).toNat =
        leNat (shard.drop (shard.length - 4)) ∧
      ∀ e ∈ es, e.empty = true ∨ e.offset + e.nbytes ≤ shard.length - (16 * n + 4) := by
  unfold parseShardIndex
  by_cases hlt : shard.length < wadd (wmul 16 n) 4
  · exact .inl (by simp [hlt])
  · simp only [hlt, if_false]
    have hf : wadd (wmul 16 n) 4 = wmul 16 n + 4 := by unfold wadd wmul; omega
    rw [hf] at hlt ⊢
    rw [slice_total (by omega), slice_total (by omega)]
    simp only [Res.ok_bind]
    split
    · exact .inl rfl
    · rename_i hcrc
      by_cases hn : n ≥ 2 ^ 59
      · rw [if_pos hn]; exact .inr (.inl ⟨rfl, hn⟩)
      · rw [if_neg hn]
        have hw : wmul 16 n = 16 * n := wmul_eq (by omega)
        rw [hw] at hcrc hlt ⊢
        rcases parseEntries_safe shard (shard.length - (16 * n + 4)) n 0 (by omega) with
          hr | ⟨es, hr, hl, hes⟩
        · exact .inl hr
        · refine .inr (.inr ⟨es, hr, hl, by omega, by omega, ?_, hes⟩)
          have : (shard.drop (shard.length - 4)).take 4 = shard.drop (shard.length - 4) :=
            List.take_of_length_le (by rw [List.length_drop]; omega)
          rw [this] at hcrc
          exact Classical.byContradiction hcrc

theorem parseEntries_inv (shard : Bytes) (N : Nat) : ∀ (n s : Nat) (es : List ShardEntry),
    N + 16 * (s + n) ≤ shard.length → parseEntries shard N s n = .ok (some es) →
    indexBytes es = (shard.drop (N + 16 * s)).take (16 * n) ∧ ∀ e ∈ es, e.offset < 2 ^ 64 ∧ e.nbytes < 2 ^ 64
  | 0, _, es, _, h => by
    cases h
    simp [indexBytes]
  | n + 1, s, es, hl, h => by
    unfold parseEntries at h
    rw [slice_total (by omega), slice_total (by omega)] at h
    simp only [Res.ok_bind] at h
    split at h
    · cases h
    · obtain ⟨r, hr, he⟩ := Res.bind_eq_ok.1 h
      have he := Res.ok.inj he
      cases r with
      | none => cases he
      | some es' =>
        cases he
        obtain ⟨ih1, ih2⟩ := parseEntries_inv shard N n (s + 1) es' (by omega) hr
        have ho : ((shard.drop (N + 16 * s)).take 8).length = 8 := by
          rw [List.length_take, List.length_drop]; omega
        have hb : ((shard.drop (N + 16 * s + 8)).take 8).length = 8 := by
          rw [List.length_take, List.length_drop]; omega
        have eo := leBytes_leNat ((shard.drop (N + 16 * s)).take 8)
        have eb := leBytes_leNat ((shard.drop (N + 16 * s + 8)).take 8)
        rw [ho] at eo
        rw [hb] at eb
        have lo := leNat_lt ((shard.drop (N + 16 * s)).take 8)
        have lb := leNat_lt ((shard.drop (N + 16 * s + 8)).take 8)
        rw [ho] at lo
        rw [hb] at lb
        refine ⟨?_, fun e hm => ?_⟩
        · show leBytes 8 _ ++ leBytes 8 _ ++ indexBytes es' = _
          rw [eo, eb, ih1]
          have h1 : shard.drop (N + 16 * (s + 1)) = (shard.drop (N + 16 * s + 8)).drop 8 := by
            rw [List.drop_drop]; congr 1
          have h2 : shard.drop (N + 16 * s + 8) = (shard.drop (N + 16 * s)).drop 8 := by rw [List.drop_drop]
          rw [h1, h2]
          generalize shard.drop (N + 16 * s) = t
          rw [show 16 * (n + 1) = 8 + (8 + 16 * n) by omega, List.take_add, List.take_add, List.append_assoc,
            List.drop_drop]
        · rcases List.mem_cons.1 hm with rfl | hm
          · exact ⟨lo, lb⟩
          · exact ih2 e hm

/-- every shard that is accepted is laid out as the format says -/
theorem layout_parse {s : Bytes} {n : Nat} {es : List ShardEntry} (hn : n < 2 ^ 59)
    (h : parseShardIndex s n = .ok (some es)) :
    es.length = n ∧ ∃ data, s = data ++ indexBytes es ++ leBytes 4 (crc32c (indexBytes es)).toNat ∧
      ∀ e ∈ es, (e.offset < 2 ^ 64 ∧ e.nbytes < 2 ^ 64) ∧ (e.empty = true ∨ e.offset + e.nbytes ≤ data.length) := by
  rcases parse_safe s n with h' | ⟨h', _⟩ | ⟨es', h', hl, _, hlen, hcrc, hes⟩
  · rw [h'] at h; cases h
  · rw [h'] at h; cases h
  · rw [h'] at h
    cases h
    refine ⟨hl, s.take (s.length - (16 * n + 4)), ?_, ?_⟩
    all_goals
      have hp : parseEntries s (s.length - (16 * n + 4)) 0 n = .ok (some es) := by
        unfold parseShardIndex at h'
        simp only [footer_eq hn] at h'
        rw [if_neg (by omega), slice_total (by omega), slice_total (by rw [wmul_eq (by omega)]; omega)] at h'
        simp only [Res.ok_bind] at h'
        split at h'
        · cases h'
        · rwa [if_neg (by omega)] at h'
      obtain ⟨h1, h2⟩ := parseEntries_inv s _ n 0 es (by omega) hp
      rw [Nat.mul_zero, Nat.add_zero] at h1
    · rw [h1, hcrc]
      have h4 : (s.drop (s.length - 4)).length = 4 := by rw [List.length_drop]; omega
      have h5 := leBytes_leNat (s.drop (s.length - 4))
      rw [h4] at h5
      rw [h5]
      have h6 : s.drop (s.length - 4) = (s.drop (s.length - (16 * n + 4))).drop (16 * n) := by
        rw [List.drop_drop]; congr 1; omega
      rw [h6, List.append_assoc, List.take_append_drop, List.take_append_drop]
    · intro e he
      refine ⟨h2 e he, ?_⟩
      rw [List.length_take, Nat.min_eq_left (by omega)]
      exact hes e he

/-! ## slots -/

theorem allPos_of_all₂ : ∀ {a b : List Nat}, All₂ (fun _ c => 0 < c) a b → AllPos b
  | [], [], _ => trivial
  | _ :: _, _ :: _, h => ⟨h.1, allPos_of_all₂ h.2⟩

theorem shardSlotLoop_eq : ∀ (id cps : List Nat) (slot k : Nat), All₂ (fun _ c => 0 < c) id cps →
    slot < k → k * prod cps < 2 ^ 64 →
    shardSlotLoop id cps slot = slot * prod cps + ravel cps (List.zipWith (· % ·) id cps)
  | [], [], slot, _, _, _, _ => by simp [shardSlotLoop, prod, ravel, strides, dot]
  | i :: id, c :: cps, slot, k, h, hs, hk => by
    have hc : 0 < c := h.1
    have hm : i % c < c := Nat.mod_lt _ hc
    have hcp : 0 < prod cps := (allPos_of_all₂ h.2).prod_pos
    have e : k * prod (c :: cps) = k * c * prod cps := by simp [prod, Nat.mul_assoc]
    rw [e] at hk
    have hkc : k * c < 2 ^ 64 := Nat.lt_of_le_of_lt (Nat.le_mul_of_pos_right _ hcp) hk
    have hsc : slot * c + i % c < k * c := by
      have : (slot + 1) * c ≤ k * c := Nat.mul_le_mul_right c hs
      rw [Nat.succ_mul] at this; omega
    rw [shardSlotLoop, wmul_eq (by omega), wadd_eq (by omega),
      shardSlotLoop_eq id cps _ (k * c) h.2 hsc hk]
    simp only [List.zipWith_cons_cons, ravel, strides, dot, prod, Nat.add_mul]
    rw [Nat.mul_assoc, Nat.add_assoc]

end Z5

namespace Z5

theorem zero_not_mem_take {cps : List Nat} (h : AllPos cps) (n : Nat) : 0 ∉ cps.take n := by
  induction cps generalizing n with
  | nil => simp
  | cons c cps ih =>
    cases n with
    | zero => simp
    | succ n =>
      simp only [List.take_succ_cons, List.mem_cons, not_or]
      exact ⟨by have := h.1; omega, ih h.2 n⟩

theorem inBox_mod : ∀ {id cps : List Nat}, id.length = cps.length → AllPos cps →
    InBox (List.zipWith (· % ·) id cps) cps
  | [], [], _, _ => trivial
  | _ :: id, _ :: cps, h, hp => ⟨Nat.mod_lt _ hp.1, inBox_mod (by simpa using h) hp.2⟩

theorem all₂_of_allPos : ∀ {id cps : List Nat}, id.length = cps.length → AllPos cps →
    All₂ (fun _ c => 0 < c) id cps
  | [], [], _, _ => trivial
  | _ :: _, _ :: _, h, hp => ⟨hp.1, all₂_of_allPos (by simpa using h) hp.2⟩

theorem shardId_eq {id cps : List Nat} (hl : id.length = cps.length) (hp : AllPos cps) :
    shardId id cps = .ok (List.zipWith (· / ·) id cps) := by
  unfold shardId
  rw [if_neg (by omega), if_neg (zero_not_mem_take hp _)]

theorem shardSlot_eq {id cps : List Nat} (hl : id.length = cps.length) (hp : AllPos cps)
    (hs : prod cps < 2 ^ 64) :
    shardSlot id cps = .ok (ravel cps (List.zipWith (· % ·) id cps)) := by
  unfold shardSlot
  rw [if_neg (by omega), if_neg (zero_not_mem_take hp _),
    shardSlotLoop_eq id cps 0 1 (all₂_of_allPos hl hp) (by omega) (by omega)]
  simp

theorem numShardSlots_eq {cps : List Nat} (hs : prod cps < 2 ^ 64) :
    numShardSlots cps = prod cps := accumulateMul_eq hs

theorem divmod_inj : ∀ {id id' cps : List Nat}, id.length = cps.length → id'.length = cps.length →
    List.zipWith (· / ·) id cps = List.zipWith (· / ·) id' cps →
    List.zipWith (· % ·) id cps = List.zipWith (· % ·) id' cps → id = id'
  | [], [], _, _, _, _, _ => rfl
  | [], _ :: _, [], _, h, _, _ => by simp at h
  | _ :: _, [], [], h, _, _, _ => by simp at h
  | _ :: _, _ :: _, [], h, _, _, _ => by simp at h
  | a :: id, b :: id', c :: cps, h, h', hd, hm => by
    simp only [List.zipWith_cons_cons, List.cons.injEq] at hd hm
    rw [divmod_inj (by simpa using h) (by simpa using h') hd.2 hm.2]
    congr 1
    rw [← Nat.div_add_mod a c, ← Nat.div_add_mod b c, hd.1, hm.1]

theorem divmod_mk : ∀ {sid r cps : List Nat}, sid.length = cps.length → InBox r cps →
    List.zipWith (· / ·) (addV (mulV sid cps) r) cps = sid ∧
    List.zipWith (· % ·) (addV (mulV sid cps) r) cps = r ∧
    (addV (mulV sid cps) r).length = cps.length
  | [], [], [], _, _ => ⟨rfl, rfl, rfl⟩
  | [], _ :: _, [], _, hr => hr.elim
  | [], _, _ :: _, h, _ => by simp at h
  | _ :: _, _, [], h, _ => by simp at h
  | _ :: _, [], _ :: _, _, hr => hr.elim
  | s :: sid, x :: r, c :: cps, h, hr => by
    have ih := divmod_mk (sid := sid) (r := r) (cps := cps) (by simpa using h) hr.2
    have hx : x < c := hr.1
    simp only [addV, mulV, List.zipWith_cons_cons, List.cons.injEq, List.length_cons]
    refine ⟨⟨?_, ih.1⟩, ⟨?_, ih.2.1⟩, by rw [← ih.2.2]; rfl⟩
    · rw [Nat.add_comm, Nat.add_mul_div_right _ _ (by omega), Nat.div_eq_of_lt hx]; omega
    · rw [Nat.add_comm, Nat.add_mul_mod_self_right, Nat.mod_eq_of_lt hx]

theorem chunksPerShard_eq {S b : List Nat} (h : All₂ (fun S b => 0 < b ∧ 0 < S ∧ S % b = 0) S b) :
    chunksPerShard S b = .ok (List.zipWith (· / ·) S b) ∧ AllPos (List.zipWith (· / ·) S b) ∧
      (List.zipWith (· / ·) S b).length = b.length := by
  have hp : AllPos b ∧ AllPos (List.zipWith (· / ·) S b) ∧
      (List.zipWith (· / ·) S b).length = b.length := by
    induction S generalizing b with
    | nil => cases b with
      | nil => exact ⟨trivial, trivial, rfl⟩
      | cons => simp at h
    | cons s S ih => cases b with
      | nil => simp at h
      | cons b bs =>
        have := ih h.2
        refine ⟨⟨h.1.1, this.1⟩, ⟨?_, this.2.1⟩, by simp [this.2.2]⟩
        exact Nat.div_pos (Nat.le_of_dvd h.1.2.1 (Nat.dvd_of_mod_eq_zero h.1.2.2)) h.1.1
  refine ⟨?_, hp.2⟩
  unfold chunksPerShard
  rw [if_neg (by have := h.length_eq; omega), if_neg (zero_not_mem_take hp.1 _)]

theorem div_div_multiple : ∀ {x S b : List Nat}, x.length = b.length →
    All₂ (fun S b => 0 < b ∧ 0 < S ∧ S % b = 0) S b →
    List.zipWith (· / ·) (List.zipWith (· / ·) x b) (List.zipWith (· / ·) S b) =
      List.zipWith (· / ·) x S
  | [], [], [], _, _ => rfl
  | x :: xs, s :: S, b :: bs, hl, h => by
    simp only [List.zipWith_cons_cons]
    rw [div_div_multiple (by simpa using hl) h.2, Nat.div_div_eq_div_mul,
      Nat.mul_div_cancel' (Nat.dvd_of_mod_eq_zero h.1.2.2)]
  | [], _ :: _, _, _, h => by simp_all
  | _ :: _, [], [], _, _ => by simp_all

end Z5
