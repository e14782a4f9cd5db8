import Verif.Spec.Dataset
import Verif.Spec.Exchange
import Verif.Proofs.Format
import Verif.Proofs.Grid
import Verif.Proofs.Handle

/-!
# Encoding and decoding one chunk
-/

namespace Z5
open Spec

variable {E : Elem}

theorem Res.ok_bind' {α β : Type} (a : α) (f : α → Res β) : (Res.ok a >>= f) = f a := rfl

/-! ### Products of extents -/

theorem prod_le : ∀ {a b : List Nat}, All₂ (· ≤ ·) a b → prod a ≤ prod b
  | [], [], _ => Nat.le_refl _
  | _ :: _, _ :: _, h => Nat.mul_le_mul h.1 (prod_le h.2)

theorem eq_of_prod_eq : ∀ {a b : List Nat}, All₂ (· ≤ ·) a b → AllPos a → prod a = prod b → a = b
  | [], [], _, _, _ => rfl
  | x :: a, y :: b, h, hp, he => by
    have h1 : x ≤ y := h.1
    have h2 := prod_le h.2
    have hx : 0 < x := hp.1
    have hpa := hp.2.prod_pos
    simp only [prod_cons] at he
    have h3 : x * prod b ≤ y * prod b := Nat.mul_le_mul_right _ h1
    have h4 : x * prod a ≤ x * prod b := Nat.mul_le_mul_left _ h2
    have e1 : x * prod a = x * prod b := by omega
    have e2 : x * prod b = y * prod b := by omega
    have e3 : prod a = prod b := Nat.eq_of_mul_eq_mul_left hx e1
    have e4 : x = y := Nat.eq_of_mul_eq_mul_right (by omega) e2
    rw [e4, eq_of_prod_eq h.2 hp.2 e3]

theorem allPos_of_axes : ∀ {s b : List Nat}, All₂ (fun s b => 0 < b ∧ s + b ≤ 2 ^ 64) s b → AllPos b
  | [], [], _ => trivial
  | _ :: _, _ :: _, h => ⟨h.1.1, allPos_of_axes h.2⟩

/-! ### Facts about well-formed datasets -/

namespace Dataset

variable {ds : Dataset E}

theorem WF.chunking_eq (h : ds.WF) : ds.chunking = mkBlocking ds.shape ds.chunkShape := by
  have := h.made
  rw [Dataset.make, make_eq h.dims, Res.ok_bind] at this
  have := congrArg Dataset.chunking (Res.ok.inj this)
  exact this.symm

theorem WF.prod_lt (h : ds.WF) : prod ds.chunkShape < 2 ^ 64 := by
  have h1 := h.bytes
  have h2 : prod ds.chunkShape * 1 ≤ prod ds.chunkShape * E.size := Nat.mul_le_mul_left _ E.size_pos
  omega

theorem WF.chunkSize_eq (h : ds.WF) : ds.chunkSize = prod ds.chunkShape := by
  have := h.made
  rw [Dataset.make, make_eq h.dims, Res.ok_bind] at this
  have := congrArg Dataset.chunkSize (Res.ok.inj this)
  rw [← this]
  exact accumulateMul_eq h.prod_lt

theorem WF.ext_le (_h : ds.WF) {c : List Nat} (hc : InGrid ds.shape ds.chunkShape c) :
    prod (extV ds.shape ds.chunkShape c) ≤ prod ds.chunkShape := prod_le (extV_le hc)

theorem WF.stored_le (h : ds.WF) {c : List Nat} (hc : InGrid ds.shape ds.chunkShape c) :
    prod (ds.stored c) ≤ prod ds.chunkShape := by
  unfold stored; split
  · exact Nat.le_refl _
  · exact h.ext_le hc

theorem WF.stored_bytes_le (h : ds.WF) {c : List Nat} (hc : InGrid ds.shape ds.chunkShape c) :
    prod (ds.stored c) * E.size ≤ prod ds.chunkShape * E.size :=
  Nat.mul_le_mul_right _ (h.stored_le hc)

theorem WF.stored_bytes (h : ds.WF) {c : List Nat} (hc : InGrid ds.shape ds.chunkShape c) :
    prod (ds.stored c) * E.size < 2 ^ 64 :=
  Nat.lt_of_le_of_lt (Nat.mul_le_mul_right _ (h.stored_le hc)) h.bytes

theorem WF.stored_pos (h : ds.WF) {c : List Nat} (hc : InGrid ds.shape ds.chunkShape c) :
    0 < prod (ds.stored c) := by
  unfold stored; split
  · exact (allPos_of_axes h.dims.axes).prod_pos
  · exact (extV_pos h.dims.axes hc).prod_pos

theorem WF.handle_eq (h : ds.WF) {c : List Nat} (hc : InGrid ds.shape ds.chunkShape c) :
    ds.handle c = .ok ⟨ds.isZarr, ds.chunkShape, extV ds.shape ds.chunkShape c⟩ := by
  rw [handle, computeBoundedShape_eq h.dims hc]; rfl

theorem WF.checkBlock (h : ds.WF) (c : List Nat) :
    ds.chunking.checkBlockCoordinate c = true ↔ InGrid ds.shape ds.chunkShape c := by
  rw [h.chunking_eq]
  unfold Blocking.checkBlockCoordinate
  have hl : ∀ c n : List Nat, c.length = n.length → (checkLoop c n = true ↔ InBox c n) := by
    intro c
    induction c with
    | nil => intro n hn; cases n with
      | nil => simp [checkLoop]
      | cons _ _ => simp at hn
    | cons x c ih => intro n hn; cases n with
      | nil => simp at hn
      | cons y n =>
        rw [checkLoop]
        have := ih n (by simpa using hn)
        split
        · simp only [inBox_cons]; constructor
          · intro h; simp at h
          · intro h; omega
        · rw [this, inBox_cons]; constructor
          · intro h; exact ⟨by omega, h⟩
          · intro h; exact h.2
  have hlen := length_blocksPerDimension h.dims.length_eq
  rw [← inBox_blocksPerDimension h.dims.axes]
  show (if c.length ≠ ds.shape.length then false
    else checkLoop c (blocksPerDimension ds.shape ds.chunkShape)) = true ↔ _
  by_cases hne : c.length = ds.shape.length
  · rw [if_neg (by simpa using hne)]
    exact hl _ _ (by rw [hlen]; exact hne)
  · rw [if_pos hne]
    constructor
    · intro h; simp at h
    · intro hb
      have := hb.length_eq
      omega

theorem WF.checkChunk_ok (h : ds.WF) {c : List Nat} (hc : InGrid ds.shape ds.chunkShape c) :
    ds.checkChunk c false = .ok () := by
  unfold checkChunk
  rw [(h.checkBlock c).2 hc]; rfl

end Dataset

/-! ### Codecs -/

theorem wmul_size {n : Nat} (h : n * E.size < 2 ^ 64) : wmul n E.size = n * E.size := wmul_eq h

theorem compress_cases (C : Codec) {N : Nat} (hC : C.LawfulFor N) (data : List E.T) (n : Nat)
    (hl : data.length = n) (hN : n * E.size ≤ N) (hn : n * E.size < 2 ^ 64) (hpos : 0 < n) :
    (∃ e, compress E C data n = .throw e) ∨
    ∃ b, compress E C data n = .ok b ∧ b ≠ [] ∧ Encodes C b (encodeList E data) ∧
      ∀ dest : List E.T, dest.length = n → decompress E C b dest n = .ok data := by
  subst hl
  unfold compress
  rw [if_neg (by omega), List.take_length]
  cases C with
  | raw =>
    right
    refine ⟨_, rfl, ?_, rfl, ?_⟩
    · intro h
      have := congrArg List.length h
      rw [length_encodeList] at this
      have := Nat.mul_pos hpos E.size_pos
      simp at *; omega
    · intro dest hd
      unfold decompress
      simp only [wmul_size hn, length_encodeList, hd]
      rw [if_neg (by omega), if_neg (by omega), overlay_encodeList _ _ _ (by omega),
        List.drop_of_length_le (by omega), List.append_nil]
  | lib c d =>
    obtain ⟨h1, h2, h3⟩ := hC
    have hlen : (encodeList E data).length ≤ N := by rw [length_encodeList]; exact hN
    have hne : encodeList E data ≠ [] := by
      intro h
      have := congrArg List.length h
      rw [length_encodeList] at this
      have := Nat.mul_pos hpos E.size_pos
      simp at *; omega
    simp only
    cases hc : c (encodeList E data) with
    | ub => exact absurd hc (h3 _ hne hlen)
    | throw e => left; exact ⟨e, rfl⟩
    | ok b =>
      right
      refine ⟨b, rfl, h2 _ _ hne hlen hc, h1 _ _ hne hlen hc, ?_⟩
      intro dest hd
      unfold decompress
      simp only [wmul_size hn]
      have h1 := h1 _ _ hne hlen hc
      rw [length_encodeList] at h1
      rw [h1, Res.ok_bind, length_encodeList, if_neg (by rw [hd]; omega), overlay_encodeList _ _ _ (by omega),
        List.drop_of_length_le (by omega), List.append_nil]

theorem revElem_one (h : ¬ E.size > 1) (x : E.T) : revElem E x = x := by
  apply toBytes_inj
  rw [toBytes_revElem]
  have h1 := E.length_toBytes x
  have h2 := E.size_pos
  match hb : E.toBytes x, h1 with
  | [], h1 => simp at h1; omega
  | [_], _ => rfl
  | _ :: _ :: _, h1 => simp at h1; omega

/-- how the bytes `b` of chunk `c` decode -/
structure Decodes (ds : Dataset E) (c : List Nat) (b : Bytes) (content : List E.T) : Prop where
  length : content.length = prod (ds.stored c)
  zarr : ds.isZarr = true → ∀ dest : List E.T, dest.length = prod (ds.stored c) →
    decompress E ds.codec b dest (prod (ds.stored c)) = .ok content
  n5 : ds.isZarr = false → ∃ hl, readN5Header b = .ok (false, prod (ds.stored c), hl) ∧
    ∀ dest : List E.T, dest.length = prod (ds.stored c) →
      decompress E ds.codec (b.drop hl) dest (prod (ds.stored c)) = .ok (content.map (revElem E))
  mode : ds.isZarr = false → readVarlenFromHeader b = .ok none
  bytes : ds.isZarr = true → Encodes ds.codec b (encodeList E content)
  header : ds.isZarr = false → ∃ rest, b = writeN5Header (ds.stored c) false 0 ++ rest ∧
    Encodes ds.codec rest (encodeList E (content.map (revElem E)))

theorem revPrefix_full (n : Nat) (l : List E.T) (h : l.length = n) :
    revPrefix E n (l.map (revElem E)) = .ok l := by
  subst h
  rw [revPrefix, if_neg (by simp), List.take_of_length_le (by simp), List.drop_of_length_le (by simp),
    List.append_nil, List.map_map]
  have : revElem E ∘ revElem E = id := by funext x; exact revElem_revElem E x
  rw [this, List.map_id]

theorem map_revElem_one (h : ¬ E.size > 1) (l : List E.T) : l.map (revElem E) = l := by
  have : revElem E = id := by funext x; exact revElem_one h x
  rw [this, List.map_id]

variable {ds : Dataset E}

theorem decodes_bufferToData (h : ds.WF) {c : List Nat} {b : Bytes} {content : List E.T}
    (hd : Decodes ds c b content) (ext : List Nat) (dest : List E.T)
    (hl : dest.length = prod (ds.stored c)) :
    bufferToData E ds.codec ⟨ds.isZarr, ds.chunkShape, ext⟩ b dest = .ok (false, content) := by
  unfold bufferToData
  by_cases hz : ds.isZarr = true
  · have hs : ds.stored c = ds.chunkShape := by rw [Dataset.stored, if_pos hz]
    have := hd.zarr hz dest hl
    rw [hs] at this
    simp only [hz, if_true, Res.ok_bind, accumulateMul_eq h.prod_lt, List.drop_zero, this]
    rfl
  · have hz' : ds.isZarr = false := by simpa using hz
    obtain ⟨n, hn, hdec⟩ := hd.n5 hz'
    have := hdec dest hl
    simp only [hz', hn, Res.ok_bind, this, Bool.not_false, Bool.true_and, decide_eq_true_eq]
    rw [if_neg (by decide)]
    by_cases hE : E.size > 1
    · rw [if_pos hE, revPrefix_full _ _ hd.length]; rfl
    · rw [if_neg hE, map_revElem_one hE]; rfl

theorem decodes_unique {c : List Nat} {b : Bytes} {content content' : List E.T}
    (h : Decodes ds c b content) (h' : Decodes ds c b content') : content = content' := by
  by_cases hz : ds.isZarr = true
  · exact Res.ok.inj ((h.zarr hz content h.length).symm.trans (h'.zarr hz content h.length))
  · have hz : ds.isZarr = false := by simpa using hz
    obtain ⟨n, e, h1⟩ := h.n5 hz
    obtain ⟨n', e', h1'⟩ := h'.n5 hz
    rw [e] at e'
    cases e'
    have := Res.ok.inj ((h1 content h.length).symm.trans (h1' content h.length))
    have e2 := congrArg (List.map (revElem E)) this
    rw [List.map_map, List.map_map] at e2
    have e3 : revElem E ∘ revElem E = id := by funext x; exact revElem_revElem E x
    rwa [e3, List.map_id, List.map_id] at e2

/-! ### Reading into a larger buffer -/

theorem overlay_append (dest extra : List E.T) (b : Bytes) (h : b.length ≤ dest.length * E.size) :
    overlay E (dest ++ extra) b = overlay E dest b ++ extra := by
  have hl := length_encodeList E dest
  apply encodeList_inj
  rw [encodeList_append]
  unfold overlay
  rw [encodeList_decodeList, encodeList_decodeList, encodeList_append, List.drop_append_of_le_length (by omega),
    ← List.append_assoc, List.take_of_length_le, List.take_of_length_le]
  all_goals simp only [List.length_append, List.length_drop, length_encodeList, Nat.add_mul]; omega

theorem decompress_append {C : Codec} {b : Bytes} {dest out : List E.T} {n : Nat} (extra : List E.T)
    (h : decompress E C b dest n = .ok out) : decompress E C b (dest ++ extra) n = .ok (out ++ extra) := by
  unfold decompress at h ⊢
  have hm : dest.length * E.size ≤ (dest ++ extra).length * E.size :=
    Nat.mul_le_mul_right _ (by simp)
  cases C with
  | raw =>
    simp only at h ⊢
    split at h
    · cases h
    · rename_i h1
      rw [if_neg h1]
      split at h
      · cases h
      · rename_i h2
        rw [if_neg (by omega), overlay_append _ _ _ (by omega)]
        cases h
        rfl
  | lib c d =>
    simp only at h ⊢
    cases hd : d b (wmul n E.size) with
    | ok o =>
      rw [hd, Res.ok_bind] at h
      rw [Res.ok_bind]
      split at h
      · cases h
      · rename_i h2
        rw [if_neg (by omega), overlay_append _ _ _ (by omega)]
        cases h
        rfl
    | throw e => rw [hd] at h; cases h
    | ub => rw [hd] at h; cases h

/-- Reading a chunk into a buffer that may be larger than the chunk: the rest of the buffer keeps its content. -/
theorem decodes_bufferToData_long (h : ds.WF) {c : List Nat} {b : Bytes} {content : List E.T}
    (hd : Decodes ds c b content) (ext : List Nat) (dest extra : List E.T)
    (hl : dest.length = prod (ds.stored c)) :
    bufferToData E ds.codec ⟨ds.isZarr, ds.chunkShape, ext⟩ b (dest ++ extra) = .ok (false, content ++ extra) := by
  unfold bufferToData
  by_cases hz : ds.isZarr = true
  · have hs : ds.stored c = ds.chunkShape := by rw [Dataset.stored, if_pos hz]
    have := decompress_append extra (hd.zarr hz dest hl)
    rw [hs] at this
    simp only [hz, if_true, Res.ok_bind, accumulateMul_eq h.prod_lt, List.drop_zero, this]
    rfl
  · have hz' : ds.isZarr = false := by simpa using hz
    obtain ⟨n, hn, hdec⟩ := hd.n5 hz'
    have := decompress_append extra (hdec dest hl)
    simp only [hz', hn, Res.ok_bind, this, Bool.not_false, Bool.true_and, decide_eq_true_eq]
    rw [if_neg (by decide)]
    have hlen := hd.length
    by_cases hE : E.size > 1
    · rw [if_pos hE, revPrefix, if_neg (by simp; omega), List.take_append_of_le_length (by simp; omega),
        List.take_of_length_le (by simp; omega), List.drop_append_of_le_length (by simp; omega),
        List.drop_of_length_le (by simp; omega), List.nil_append, List.map_map]
      have : revElem E ∘ revElem E = id := by funext x; exact revElem_revElem E x
      rw [this, List.map_id]; rfl
    · rw [if_neg hE, map_revElem_one hE]; rfl

theorem prod_reverse_ext_lt (h : ds.WF) {c : List Nat} (hc : InGrid ds.shape ds.chunkShape c) :
    prod (extV ds.shape ds.chunkShape c) < 2 ^ 64 :=
  Nat.lt_of_le_of_lt (h.ext_le hc) h.prod_lt

theorem mem_le_of_all₂ : ∀ {a b : List Nat} {n : Nat}, All₂ (· ≤ ·) a b → (∀ x ∈ b, x < n) →
    ∀ x ∈ a, x < n
  | [], [], _, _, _, x, hx => by simp at hx
  | a :: as, b :: bs, n, h, hb, x, hx => by
    rcases List.mem_cons.1 hx with rfl | hx
    · have h1 := hb b List.mem_cons_self
      have h2 : x ≤ b := h.1
      omega
    · exact mem_le_of_all₂ h.2 (fun y hy => hb y (List.mem_cons_of_mem _ hy)) x hx

theorem dataToN5Format_eq (C : Codec) (data : List E.T) (n : Nat) (shape : List Nat) (v : Bool)
    (hl : data.length = n) :
    dataToN5Format E C data n shape v = do
      let b ← compress E C (data.map (revElem E)) n
      return writeN5Header shape v n ++ b := by
  unfold dataToN5Format
  by_cases hE : E.size > 1
  · simp only [if_pos hE]
    rw [if_neg (by omega), List.take_of_length_le (by omega), Res.ok_bind]
  · simp only [if_neg hE, map_revElem_one hE, Res.ok_bind]

/-- Encoding a full chunk: elided, encoded, or the compressor throws. -/
theorem dataToBuffer_cases (h : ds.WF) {c : List Nat} (hc : InGrid ds.shape ds.chunkShape c)
    (data : List E.T) (hl : data.length = prod (ds.stored c)) :
    let r := dataToBuffer E ds.codec ⟨ds.isZarr, ds.chunkShape, extV ds.shape ds.chunkShape c⟩ data
      ds.fill false 0
    (r = .ok none ∧ ∀ e ∈ data, E.ceq e ds.fill = true) ∨
    ((∃ e ∈ data, E.ceq e ds.fill = false) ∧
      ((∃ e, r = .throw e) ∨ ∃ b, r = .ok (some b) ∧ b ≠ [] ∧ Decodes ds c b data)) := by
  intro r
  have hsz : (if ds.isZarr then accumulateMul ds.chunkShape
      else accumulateMul (extV ds.shape ds.chunkShape c)) = prod (ds.stored c) := by
    unfold Dataset.stored
    split
    · exact accumulateMul_eq h.prod_lt
    · exact accumulateMul_eq (prod_reverse_ext_lt h hc)
  have hr : r = if (data.take (prod (ds.stored c))).all fun v => E.ceq v ds.fill then .ok none
      else if ds.isZarr then do
        let b ← compress E ds.codec data (prod (ds.stored c))
        return some b
      else do
        let b ← dataToN5Format E ds.codec data (prod (ds.stored c))
          (if ds.isZarr then ds.chunkShape else extV ds.shape ds.chunkShape c) false
        return some b := by
    show dataToBuffer E ds.codec _ data ds.fill false 0 = _
    unfold dataToBuffer
    simp only [Bool.false_and, Bool.false_eq_true, if_false, Bool.not_false, if_true, hsz]
    rw [if_neg (by omega)]
  rw [hr, List.take_of_length_le (by omega)]
  by_cases hall : (data.all fun v => E.ceq v ds.fill) = true
  · left
    rw [if_pos hall]
    exact ⟨rfl, List.all_eq_true.1 hall⟩
  · right
    rw [if_neg hall]
    have hex : ∃ e ∈ data, E.ceq e ds.fill = false := by
      rw [List.all_eq_true] at hall
      simp only [Classical.not_forall] at hall
      obtain ⟨e, he, hne⟩ := hall
      exact ⟨e, he, by simpa using hne⟩
    refine ⟨hex, ?_⟩
    by_cases hz : ds.isZarr = true
    · rw [if_pos hz]
      rcases compress_cases ds.codec h.codec data _ hl (h.stored_bytes_le hc) (h.stored_bytes hc) (h.stored_pos hc) with
        ⟨e, he⟩ | ⟨b, hb, hne, henc, hdec⟩
      · left; exact ⟨e, by rw [he]; rfl⟩
      · right
        refine ⟨b, by rw [hb]; rfl, hne, ⟨hl, fun _ => hdec, fun hf => ?_, fun hf => ?_, fun _ => henc, fun hf => ?_⟩⟩
        · rw [hz] at hf; simp at hf
        · rw [hz] at hf; simp at hf
        · rw [hz] at hf; simp at hf
    · have hz' : ds.isZarr = false := by simpa using hz
      have hst : ds.stored c = extV ds.shape ds.chunkShape c := by
        rw [Dataset.stored, if_neg hz]
      rw [if_neg hz, if_neg hz]
      rw [dataToN5Format_eq _ _ _ _ _ hl]
      rcases compress_cases ds.codec h.codec (data.map (revElem E)) _ (by simpa using hl)
        (h.stored_bytes_le hc) (h.stored_bytes hc) (h.stored_pos hc) with ⟨e, he⟩ | ⟨b, hb, hne, henc, hdec⟩
      · left; exact ⟨e, by rw [he]; rfl⟩
      · right
        have hn5 := h.n5 hz'
        have hlen := length_extV hc
        have hm : (extV ds.shape ds.chunkShape c).map (· % 2 ^ 32) = extV ds.shape ds.chunkShape c := by
          conv => rhs; rw [← List.map_id (extV ds.shape ds.chunkShape c)]
          apply List.map_congr_left
          intro s hs
          exact Nat.mod_eq_of_lt (mem_le_of_all₂ (extV_le hc) hn5.2 s hs)
        have hhd := readN5Header_write (extV ds.shape ds.chunkShape c) false (prod (ds.stored c)) b
          (by rw [hlen]; exact hn5.1)
        rw [hm, accumulateMul_eq (prod_reverse_ext_lt h hc), ← hst] at hhd
        simp only [Bool.false_eq_true, if_false] at hhd
        refine ⟨writeN5Header (extV ds.shape ds.chunkShape c) false (prod (ds.stored c)) ++ b,
          by rw [hb]; rfl, ?_, ⟨hl, fun hf => ?_, fun _ => ⟨((ds.stored c).length + 1) * 4 + 0, ?_, ?_⟩,
            fun _ => readVarlenFromHeader_plain _ _ _ (by rw [hlen]; exact hn5.1),
            fun hf => (by rw [hf] at hz'; simp at hz'),
            fun _ => ⟨b, by rw [hst]; rfl, henc⟩⟩⟩
        · intro h0
          exact hne (List.append_eq_nil_iff.1 h0).2
        · rw [hf] at hz'; simp at hz'
        · rw [← hst]; exact hhd
        · intro dest hd
          have hlw := length_writeN5Header (extV ds.shape ds.chunkShape c) false (prod (ds.stored c))
          rw [show ((ds.stored c).length + 1) * 4 + 0 =
            (writeN5Header (extV ds.shape ds.chunkShape c) false (prod (ds.stored c))).length by
              rw [hlw, hst]; simp, List.drop_left]
          exact hdec dest hd

end Z5
