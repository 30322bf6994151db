import Verif.Frame.Safe

/-!
# C68: The frame decoder accepts exactly the QUIC wire format and never panics

For arbitrary bytes at the cursor.
-/

namespace Verif.C68
open Verif Verif.Io Verif.Frame

/-- Decoding never panics, never changes the buffer and never moves backwards or
beyond its end. -/
theorem never_panics (pkt : PktType) (c : Cur) (hc : c.WF) :
    ∃ r c', fromBytes pkt c = (r, c') ∧ r ≠ .error .panic ∧ c'.buf = c.buf ∧ c.off ≤ c'.off ∧
      c'.off ≤ c'.buf.length := by
  obtain ⟨r, c', h1, h2, h3, h4, h5, _⟩ := safe_fromBytes pkt c hc
  exact ⟨r, c', h1, h5, h2, h3, h4⟩

/-- A decoded frame was on the wire, in the format of its type, and is permitted. -/
theorem only_wire_format (pkt : PktType) (c c' : Cur) (hc : c.WF) (f : Frame)
    (h : fromBytes pkt c = (.ok f, c')) :
    ∃ bs, c.rest = bs ++ c'.rest ∧ c' = { c with off := c.off + bs.length } ∧ bs ≠ [] ∧
      OnWire f bs c'.rest ∧ Permitted pkt f := by
  obtain ⟨bs, h1, h2, _, h3, h4⟩ := decode_sound hc h
  refine ⟨bs, h1, h2, ?_, h3, h4⟩
  rintro rfl
  obtain ⟨ty, fs, ⟨b1, b2, e, hv, _⟩, _⟩ := h3
  have : b1 = [] := (List.append_eq_nil_iff.mp e.symm).1
  subst this
  unfold Field.Spells IsVarint at hv
  simp at hv

/-- Everything in wire format that is permitted is decoded. -/
theorem all_wire_format (pkt : PktType) (c : Cur) (hc : c.WF) (f : Frame) (bs tail : Bytes)
    (hr : c.rest = bs ++ tail) (hw : OnWire f bs tail) (hp : Permitted pkt f) :
    ∃ g, Same f g ∧ fromBytes pkt c = (.ok g, { c with off := c.off + bs.length }) := by
  obtain ⟨g, h1, h2⟩ := decode_complete hw hp
  exact ⟨g, h1, h2 c hc hr⟩

/-- The largest payload with a frame type and lengths in eight bytes each. -/
example : fromBytes .short (Cur.withSlice [0xc0, 0, 0, 0, 0, 0, 0, 0x31, 0x80, 0, 0, 2, 0xaa, 0xbb]) =
    (.ok (.datagram [0xaa, 0xbb]),
      ⟨[0xc0, 0, 0, 0, 0, 0, 0, 0x31, 0x80, 0, 0, 2, 0xaa, 0xbb], 14⟩) := by decide +kernel
example : OnWire (.datagram [0xaa, 0xbb]) [0xc0, 0, 0, 0, 0, 0, 0, 0x31, 0x80, 0, 0, 2, 0xaa, 0xbb] [] := by
  refine ⟨0x31, [.int 2, .raw [0xaa, 0xbb]],
    ⟨[0xc0, 0, 0, 0, 0, 0, 0, 0x31], _, rfl, by simp [Field.Spells, IsVarint, beVal],
      [0x80, 0, 0, 2], _, rfl, by simp [Field.Spells, IsVarint, beVal], spells_one.mpr rfl⟩,
    [0xaa, 0xbb], rfl, rfl⟩
/-- A truncated frame. -/
example : (fromBytes .short (Cur.withSlice [0x31, 3, 0xaa, 0xbb])).1 = .error .bufferTooShort := by
  decide +kernel

end Verif.C68
