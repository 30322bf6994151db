import Verif.Qpack.Section

/-! # C52 — QPACK header blocks survive a round trip -/

namespace Verif.Props.C52
open Verif Verif.Qpack

/-- Two lists of headers agree but for the case of the letters in the names: those of the
second list are in lower case. -/
def Same (a b : List (Bytes × Bytes)) : Prop :=
  a.length = b.length ∧ ∀ i (h : i < a.length) (h' : i < b.length),
    C03.Lowered a[i].1 b[i].1 ∧ a[i].2 = b[i].2

/-- **C52.** For every list of headers there are bytes that encoding it writes if they fit
(and otherwise fails for lack of room), and decoding them gives the same headers in the same
order, names in lower case, if their size is within the limit, and is refused as too large
if not. -/
theorem roundtrip (hs : List (Bytes × Bytes))
    (hb : ∀ h ∈ hs, h.1.length < 2 ^ 64 ∧ h.2.length < 2 ^ 64) :
    ∃ bs hs', Io.Writes (encode hs) bs () ∧ Same hs hs' ∧ size hs' = size hs ∧
      ∀ m, decode bs m = if size hs ≤ m then .ok hs' else .error .headerListTooLarge := by
  obtain ⟨bs, hw, hblk⟩ := encode_writes hs hb
  have hsz : size (hs.map lowered) = size hs := by
    unfold size
    rw [List.map_map]
    congr 1
    apply List.map_congr_left
    intro h _
    simp [lowered]
  refine ⟨bs, hs.map lowered, hw, ⟨by simp, ?_⟩, hsz, ?_⟩
  · intro i h h'
    rw [List.getElem_map]
    exact ⟨C03.lowered _, rfl⟩
  · intro m
    rw [decode_complete hblk, hsz]

/-- Run a writer on an empty buffer of a hundred bytes. -/
def written (p : Q Unit) : Bytes :=
  let c := (p (Cur.withSlice (List.replicate 100 0))).2
  c.buf.take c.off

/-- `:method: GET` (indexed), `Accept: x` (name reference), `X-A: Q` (literal name),
`x: "~~~~"` (plain literal). -/
example : written (encode [([58, 109, 101, 116, 104, 111, 100], [71, 69, 84]),
      ([65, 99, 99, 101, 112, 116], [120]), ([88, 45, 65], [81]), ([120], [126, 126, 126, 126])]) =
    [0, 0, 0xd1, 0x5f, 14, 129, 243, 0x2b, 242, 176, 255, 129, 217, 41, 243, 4, 126, 126, 126, 126]
    := by decide +kernel

example : decode [0, 0, 0xd1, 0x5f, 14, 129, 243, 0x2b, 242, 176, 255, 129, 217, 41, 243, 4, 126,
      126, 126, 126] 200 =
    .ok [([58, 109, 101, 116, 104, 111, 100], [71, 69, 84]),
      ([97, 99, 99, 101, 112, 116], [120]), ([120, 45, 97], [81]), ([120], [126, 126, 126, 126])] := by
  decide +kernel

end Verif.Props.C52
