import Verif.Packet.HdrEncode
import Verif.Packet.Protect

/-!
# C69: The header parser accepts exactly the wire format, and taking a packet apart
never panics
-/

namespace Verif.C69
open Verif Verif.Io Verif.Packet

/-- The header parser accepts a datagram iff it starts with a header, as spelled out in
`HdrWire`; it then returns that header and stands right behind it. -/
theorem exact (dcidLen : Nat) (buf : Bytes) (h : Header) (n : Nat) :
    fromBytes dcidLen (Cur.withSlice buf) = (.ok h, { buf := buf, off := n }) ↔
      ∃ fs bs tail, buf = bs ++ tail ∧ n = bs.length ∧ Spells fs bs ∧ HdrWire dcidLen fs tail h := by
  constructor
  · intro hp
    obtain ⟨fs, bs, hs, hr, hc, _, hw⟩ := (gram_fromBytes dcidLen).sound _ _ _ (by simp [Cur.WF, Cur.withSlice]) hp
    simp only [Cur.withSlice, Cur.mk.injEq, true_and, Nat.zero_add] at hc
    exact ⟨fs, bs, _, by simpa [Cur.rest, Cur.withSlice] using hr, hc, hs, hw⟩
  · rintro ⟨fs, bs, tail, rfl, rfl, hs, hw⟩
    rw [(gram_fromBytes dcidLen).complete fs bs tail h hw hs (Cur.withSlice (bs ++ tail))
      (by simp [Cur.WF, Cur.withSlice]) (by simp [Cur.rest, Cur.withSlice])]
    simp [Cur.withSlice]

theorem safe_versions (n : Nat) : ∀ c : Cur, c.WF → c.cap < n →
    ∃ r c', versionList n c = (r, c') ∧ c'.buf = c.buf ∧ c.off ≤ c'.off ∧ c'.WF ∧
      r ≠ .error (FromOctets.fromO .panic) ∧ ∀ a, r = .ok a → True := by
  induction n with
  | zero => intro c _ h; omega
  | succ n ih =>
    intro c hc hn
    unfold versionList
    rw [bind_run]
    simp only [Io.cap]
    by_cases h0 : c.cap > 0
    · rw [if_pos h0, bind_run]
      obtain ⟨r, c1, e, hb, ho, hw, hne, _⟩ := safe_getU (ε := Err) distinct 4 c hc
      rw [e]
      cases r with
      | error e => exact ⟨_, _, rfl, hb, ho, hw, fun h => hne (by rw [Except.error.inj h]), fun _ _ => trivial⟩
      | ok v =>
        simp only
        have hlt : c1.cap < n := by
          obtain ⟨fs, bs, hs, hr, hc', _, hl⟩ := (gram_getU (ε := Err) 4).sound _ _ _ hc e
          have : bs.length = 4 := by
            obtain ⟨rfl, _⟩ := hl
            have := spells_one.mp hs
            exact this.1
          rw [hc']; unfold Cur.cap at *; simp only; omega
        obtain ⟨r2, c2, e2, hb2, ho2, hw2, hne2, _⟩ := ih c1 hw hlt
        rw [bind_run, e2]
        cases r2 with
        | error e => exact ⟨_, _, rfl, by rw [hb2, hb], by omega, hw2, fun h => hne2 (by rw [Except.error.inj h]), fun _ _ => trivial⟩
        | ok l => exact ⟨_, _, rfl, by rw [hb2, hb], by omega, hw2, by simp, fun _ _ => trivial⟩
    · rw [if_neg h0]
      exact ⟨_, _, rfl, rfl, Nat.le_refl _, hc, by simp, fun _ _ => trivial⟩

theorem safe_fromBytes (dcidLen : Nat) : Safe (fromBytes dcidLen) (fun _ => True) := by
  have g := safe_getU (ε := Err) distinct
  have by' := safe_bytes (ε := Err) distinct
  unfold fromBytes
  refine Safe.bind (g 1) fun first _ => ?_
  split
  · exact Safe.bind (by' _) fun _ _ => Safe.pure trivial
  · refine Safe.bind (g 4) fun version _ => ?_
    split
    · exact Safe.fail (by decide)
    · refine Safe.bind (g 1) fun dl _ => ?_
      split
      · exact Safe.fail (by decide)
      refine Safe.bind (by' _) fun dcid _ => Safe.bind (g 1) fun sl _ => ?_
      split
      · exact Safe.fail (by decide)
      refine Safe.bind (by' _) fun scid _ => Safe.bind (Q := fun _ => True) ?_ fun r _ => Safe.pure trivial
      unfold longTail
      split
      · exact Safe.bind (safe_varBytes distinct) fun _ _ => Safe.pure trivial
      · refine Safe.bind safe_cap fun left _ => ?_
        split
        · exact Safe.fail (by decide)
        · exact Safe.bind (by' _) fun _ _ => Safe.pure trivial
      · intro c hc
        obtain ⟨r, c', e, h1, h2, h3, h4, _⟩ := safe_versions (c.cap + 1) c hc (by omega)
        rw [bind_run]
        simp only [Io.cap]
        rw [bind_run, e]
        cases r with
        | error e => exact ⟨_, _, rfl, h1, h2, h3, fun h => h4 (by rw [Except.error.inj h]), fun _ _ => trivial⟩
        | ok l => exact ⟨_, _, rfl, h1, h2, h3, by simp, fun _ _ => trivial⟩
      · exact Safe.pure trivial

/-- Parsing a header never panics. -/
theorem header_no_panic (dcidLen : Nat) (buf : Bytes) :
    (fromBytes dcidLen (Cur.withSlice buf)).1 ≠ .error .panic := by
  obtain ⟨r, c', e, _, _, _, h, _⟩ := safe_fromBytes dcidLen (Cur.withSlice buf) (by simp [Cur.WF, Cur.withSlice])
  rw [e]; exact h

theorem decryptPkt_no_panic (k : Keys) (pn pnLen len : Nat) (c : Cur) :
    (decryptPkt k pn pnLen len c).1 ≠ .error .panic := by
  unfold decryptPkt
  simp only
  split
  · simp
  split
  · simp
  split
  · simp
  split
  · simp
  · split <;> simp

/-- Taking a packet apart never panics, whatever the bytes, keys and state. -/
theorem unpack_no_panic (k : Keys) (dcidLen largest : Nat) (buf : Bytes) :
    unpack k dcidLen largest buf ≠ .error .panic := by
  obtain ⟨r, c, e, _, _, hw, hne, _⟩ := safe_fromBytes dcidLen (Cur.withSlice buf) (by simp [Cur.WF, Cur.withSlice])
  unfold unpack
  rw [e]
  cases r with
  | error e => exact fun h => hne (by rw [Except.error.inj h]; rfl)
  | ok h =>
    simp only
    split
    · simp
    split
    · next e he =>
      split at he
      · cases he
      · obtain ⟨r, c2, e2, _, _, _, hne2, _⟩ := safe_varint (ε := Err) distinct c hw
        rw [he] at e2
        cases e2
        exact fun h => hne2 (by rw [Except.error.inj h]; rfl)
    · split
      · simp
      split
      · next e he =>
        unfold decryptHdr at he
        split at he
        · cases he; simp
        · split at he
          · cases he; simp
          · cases he
      · split
        · next e he =>
          intro h
          cases h
          have := congrArg Prod.fst he
          exact decryptPkt_no_panic k _ _ _ _ this
        · simp

/-! ### Concrete cases -/

/-- A Version Negotiation packet offering versions 1 and 0x6b3343cf. -/
example : fromBytes 0 (Cur.withSlice [0x80, 0, 0, 0, 0, 1, 7, 0, 0, 0, 0, 1, 0x6b, 0x33, 0x43, 0xcf]) =
    (.ok { ty := .versionNegotiation, version := 0, dcid := [7], scid := [], versions := some [1, 0x6b3343cf] },
      ⟨[0x80, 0, 0, 0, 0, 1, 7, 0, 0, 0, 0, 1, 0x6b, 0x33, 0x43, 0xcf], 16⟩) := by decide +kernel
/-- A version cut short, a Retry without tag, a payload length that exceeds the datagram. -/
example : (fromBytes 0 (Cur.withSlice [0x80, 0, 0, 0, 0, 1, 7, 0, 0, 0, 0])).1 = .error .bufferTooShort := by decide +kernel
example : (fromBytes 0 (Cur.withSlice [0xf0, 0, 0, 0, 1, 0, 0, 1, 2, 3])).1 = .error .invalidPacket := by decide +kernel

end Verif.C69
