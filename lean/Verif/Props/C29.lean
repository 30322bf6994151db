import Verif.Frame.Safe

/-!
# C29: QUIC frames survive an encode/decode round trip

Every frame whose fields are in range is written if there is room; what was
written, followed by arbitrary bytes, is decoded to the same frame and consumed
exactly, in every packet type that permits it. PADDING takes in the zero bytes that
follow it (`padding_absorbs`). For data of 2^14 bytes and more the length field is
too narrow and the round trip fails (`long_stream_cut`).
-/

namespace Verif.C29
open Verif Verif.Io Verif.Frame

/-- With room for it, a frame is written to the bytes from the cursor on, and
nothing else in the buffer changes; the result is the number of bytes. -/
theorem written (f : Frame) (h : InRange f) :
    ∃ bs, ∀ c : Cur, c.WF → bs.length ≤ c.cap →
      toBytes f c = (.ok bs.length, { buf := Cur.overwrite c.buf c.off bs, off := c.off + bs.length }) := by
  obtain ⟨n, ty, fs, g, h1, ⟨bs, w, s, l⟩, _, _⟩ := encode_spec h
  refine ⟨bs, fun c hc hl => ?_⟩
  obtain ⟨c', e, hw⟩ := (toBytes_writes w).ok c hc hl
  rw [e]
  have : c' = { buf := Cur.overwrite c.buf c.off bs, off := c.off + bs.length } := by
    obtain ⟨b, o⟩ := c'
    rw [← hw.buf, ← hw.off]
  rw [this]

/-- What was written is read back. -/
theorem round_trip (f : Frame) (h : InRange f) (pkt : PktType) (hp : Permitted pkt f)
    (c c' : Cur) (hc : c.WF) (n : Nat) (he : toBytes f c = (.ok n, c'))
    (tail : Bytes) (ht : TailOk f tail) :
    ∃ g, Same f g ∧
      fromBytes pkt (Cur.withSlice ((c'.buf.drop c.off).take n ++ tail)) =
        (.ok g, { buf := (c'.buf.drop c.off).take n ++ tail, off := n }) := by
  obtain ⟨m, ty, fs, g, h1, ⟨bs, w, s, l⟩, hb, hs⟩ := encode_spec h
  by_cases hl : bs.length ≤ c.cap
  · obtain ⟨c2, e, hw⟩ := (toBytes_writes w).ok c hc hl
    rw [e] at he
    obtain ⟨rfl, rfl⟩ : bs.length = n ∧ c2 = c' := by simpa using he
    rw [Wr.rest hw, List.take_left]
    have hpg : Permitted pkt g := by
      cases f <;> cases g <;> simp [Same] at hs <;> cases pkt <;> simp_all [Permitted]
    obtain ⟨f', h2, h3⟩ := decode_complete ⟨ty, fs, s, hb tail ht⟩ hpg
    refine ⟨f', ?_, ?_⟩
    · cases f <;> cases g <;> simp [Same] at hs <;> cases f' <;> simp [Same] at h2 <;> simp_all [Same]
    · have := h3 (Cur.withSlice (bs ++ tail)) (by simp [Cur.WF, Cur.withSlice]) rfl
      rw [this]
      simp [Cur.withSlice]
  · obtain ⟨c2, e⟩ := (toBytes_writes w).short c hc (by omega)
    rw [e] at he
    cases he

/-- Zero bytes after PADDING become part of it. -/
theorem padding_absorbs (n k : Nat) (hn : 1 ≤ n) (pkt : PktType) (tail : Bytes) (ht : tail.head? ≠ some 0) :
    fromBytes pkt (Cur.withSlice (List.replicate n 0 ++ (List.replicate k 0 ++ tail))) =
      (.ok (.padding (n + k)), { buf := List.replicate n 0 ++ (List.replicate k 0 ++ tail), off := n + k }) := by
  have hw : OnWire (.padding (n + k)) (List.replicate (n + k) 0) tail := by
    refine ⟨0, [.raw (List.replicate (n + k - 1) 0)], ⟨[0], List.replicate (n + k - 1) 0, ?_, ?_, ?_⟩,
      n + k - 1, rfl, ht, by congr 1; omega⟩
    · rw [List.singleton_append, ← List.replicate_succ]
      congr 1; omega
    · exact .inl ⟨rfl, by decide, rfl⟩
    · exact spells_one.mpr rfl
  obtain ⟨g, h1, h2⟩ := decode_complete (pkt := pkt) hw (by cases pkt <;> exact trivial)
  have : g = .padding (n + k) := by
    cases g <;> simp [Same] at h1
    rw [h1]
  subst this
  rw [← List.append_assoc, List.replicate_append_replicate]
  have := h2 (Cur.withSlice (List.replicate (n + k) 0 ++ tail)) (by simp [Cur.WF, Cur.withSlice]) rfl
  rw [this]
  simp [Cur.withSlice]

/-- The two-byte length field of 2^14 + k is that of k. -/
theorem narrow_length (k : Nat) (hk : k < 2 ^ 14) : encVarintLen (2 ^ 14 + k) 2 = encVarintLen k 2 := by
  have key : ∀ x : Fin 64, UInt8.ofNat (64 + x.val) ||| 0x40 = UInt8.ofNat x.val ||| 0x40 := by
    decide +kernel
  have h1 : (2 ^ 14 + k) / 256 = 64 + k / 256 := by omega
  have h2 := key ⟨k / 256, by omega⟩
  simp only at h2
  simp only [encVarintLen, beBytes, List.modify_zero_cons, Nat.pow_one, Nat.pow_zero, Nat.div_one]
  rw [h1, h2]
  congr 2
  apply UInt8.toNat_inj.mp
  simp only [UInt8.toNat_ofNat', Nat.reducePow]
  omega

/-- A STREAM frame with 2^14 to 2^15 - 1 bytes of data is written without an
error, but what was written is decoded as a frame with 2^14 bytes less: the round
trip fails outside the range. -/
theorem long_stream_cut (id off : Nat) (data : Bytes) (hid : id < 2 ^ 62) (hoff : off + data.length < 2 ^ 62)
    (h1 : 2 ^ 14 ≤ data.length) (h2 : data.length < 2 ^ 15) (c : Cur) (hc : c.WF)
    (hroom : 19 + data.length ≤ c.cap) :
    ∃ n c', toBytes (.stream id off data false) c = (.ok n, c') ∧
      ∃ off', fromBytes .short (Cur.withSlice ((c'.buf.drop c.off).take n)) =
        (.ok (.stream id off (data.take (data.length - 2 ^ 14)) false),
          { buf := (c'.buf.drop c.off).take n, off := off' }) := by
  obtain ⟨k, hk⟩ : ∃ k, data.length = 2 ^ 14 + k := ⟨data.length - 2 ^ 14, by omega⟩
  obtain ⟨n1, l1, _⟩ := emits_int hid
  obtain ⟨n2, l2, _⟩ := emits_int (v := off) (by omega)
  have w : Writes (put (.stream id off data false))
      (((enc 0x0e) ++ (enc id ++ (enc off ++ encVarintLen data.length 2))) ++ data) () :=
    ((writes_varint (v := 0x0e) (by decide)).bind ((writes_varint hid).bind ((writes_varint (by omega)).bind
      (writes_varintLen (.inr (.inl rfl)))))).bind (writes_bytes data)
  have hb8 : ∀ v n, varintLen v = some n → n ≤ 8 := by
    intro v n h
    unfold varintLen at h
    repeat' split at h
    all_goals first | (cases h; done) | (cases h; omega)
  have len1 : (enc id).length = n1 := by have := enc_length hid; rw [l1] at this; cases this; rfl
  have len2 : (enc off).length = n2 := by
    have := enc_length (v := off) (by omega); rw [l2] at this; cases this; rfl
  have len3 : (encVarintLen data.length 2).length = 2 := encVarintLen_length (.inr (.inl rfl))
  have b1 := hb8 _ _ l1
  have b2 := hb8 _ _ l2
  obtain ⟨c', e, hw⟩ := (toBytes_writes w).ok c hc (by
    simp only [List.length_append, len1, len2, len3]
    have : (enc 0x0e).length = 1 := by decide
    omega)
  refine ⟨_, c', e, ?_⟩
  rw [Wr.rest hw, List.take_left]
  have hsplit : ((enc 0x0e) ++ (enc id ++ (enc off ++ encVarintLen data.length 2))) ++ data =
      (enc 0x0e ++ (enc id ++ (enc off ++ (encVarintLen k 2 ++ data.take k)))) ++ data.drop k := by
    rw [hk, narrow_length k (by omega)]
    simp [List.take_append_drop]
  have isv : ∀ v, v < 2 ^ 62 → IsVarint v (enc v) := by
    intro v hv
    obtain ⟨n, q1, q2, q3⟩ := varintLen_spec hv
    unfold enc; rw [q1]; exact isVarint_enc q2 q3
  have hk2 : (data.take k).length = k := by simp; omega
  have hon : OnWire (.stream id off (data.take k) false)
      (enc 0x0e ++ (enc id ++ (enc off ++ (encVarintLen k 2 ++ data.take k)))) (data.drop k) := by
    refine ⟨0x0e, [.int id, .int off, .int (data.take k).length, .raw (data.take k)],
      ⟨_, _, rfl, isv _ (by decide), _, _, rfl, isv _ hid, _, _, rfl, isv _ (by omega), _, _, rfl, ?_, spells_one.mpr rfl⟩,
      id, off, data.take k, rfl, by simp, by simp, by omega, rfl⟩
    rw [hk2]
    exact isVarint_enc (.inr (.inl rfl)) (by simpa using (by omega : k < 2 ^ 14))
  obtain ⟨g, h3, h4⟩ := decode_complete (pkt := .short) hon trivial
  have : g = .stream id off (data.take k) false := by
    cases g <;> simp [Same] at h3
    obtain ⟨rfl, rfl, rfl, rfl⟩ := h3; rfl
  subst this
  have := h4 (Cur.withSlice _) (by simp [Cur.WF, Cur.withSlice]) rfl
  rw [hsplit, this, show data.length - 2 ^ 14 = k by omega]
  exact ⟨_, rfl⟩

/-! ### Concrete cases -/

/-- An ACK frame with two ranges, 3-4 and 7-9, followed by another frame. -/
example :
    let f : Frame := .ack 5 (.inline [(3, 5), (7, 10)] 100) none
    toBytes f (Cur.withSlice (List.replicate 10 0xff)) =
      (.ok 7, { buf := [2, 9, 5, 1, 2, 1, 1, 0xff, 0xff, 0xff], off := 7 }) ∧
    fromBytes .initial (Cur.withSlice [2, 9, 5, 1, 2, 1, 1, 0x1e]) =
      (.ok (.ack 5 (.inline [(3, 5), (7, 10)] (2 ^ 64 - 1)) none),
        { buf := [2, 9, 5, 1, 2, 1, 1, 0x1e], off := 7 }) := by
  decide +kernel

example : InRange (.ack 5 (.inline [(3, 5), (7, 10)] 100) none) ∧
    Permitted .initial (.ack 5 (.inline [(3, 5), (7, 10)] 100) none) := by
  simp [InRange, AckOk, Permitted, Ranges.RangeSet.ranges]

/-- A STREAM frame. -/
example :
    toBytes (.stream 4 100 [1, 2, 3] true) (Cur.withSlice (List.replicate 9 0)) =
      (.ok 9, { buf := [0x0f, 4, 0x40, 100, 0x40, 3, 1, 2, 3], off := 9 }) ∧
    fromBytes .zeroRTT (Cur.withSlice [0x0f, 4, 0x40, 100, 0x40, 3, 1, 2, 3, 0xff]) =
      (.ok (.stream 4 100 [1, 2, 3] true),
        { buf := [0x0f, 4, 0x40, 100, 0x40, 3, 1, 2, 3, 0xff], off := 9 }) := by
  decide +kernel

end Verif.C29
