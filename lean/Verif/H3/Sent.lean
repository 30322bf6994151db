import Verif.H3.Send

/-!
What the functions of `Verif.H3.Send` do to the send side of a stream: they write whole frames or
nothing.
-/

namespace Verif.H3.Send
open Verif Verif.H3 Verif.Io

theorem upd_at {α : Type} (f : Nat → α) (i : Nat) (a : α) : upd f i a i = a := by simp [upd]

theorem upd_ne {α : Type} (f : Nat → α) {i j : Nat} (a : α) (h : j ≠ i) : upd f i a j = f j := by simp [upd, h]

theorem upd_id {α : Type} {f : Nat → α} {i : Nat} {a : α} (h : f i = a) : upd f i a = f := by
  funext j
  unfold upd
  split
  · rename_i e; rw [e, h]
  · rfl

theorem upd_upd {α : Type} (f : Nat → α) (i : Nat) (a b : α) : upd (upd f i a) i b = upd f i b := by
  funext j
  unfold upd
  split <;> rfl

theorem S.setTx_id {s : S} {id : Nat} {t : Tx} (h : s.tx id = some t) : s.setTx id t = s := by
  unfold S.setTx
  rw [upd_id h]

theorem S.setTx_setTx (s : S) (id : Nat) (t t' : Tx) : (s.setTx id t).setTx id t' = s.setTx id t' := by
  unfold S.setTx
  dsimp only
  rw [upd_upd]

theorem S.setTx_at (s : S) (id : Nat) (t : Tx) : (s.setTx id t).tx id = some t := upd_at _ _ _

/-! ### Writing -/

/-- With `bs` accepted. -/
def Tx.add (t : Tx) (bs : Bytes) (fin : Bool) : Tx :=
  { t with out := t.out ++ bs, cap := t.cap - bs.length, fin := fin }

theorem Tx.write_full {t : Tx} {bs : Bytes} (fin : Bool) (h : t.sealed = false) (hc : bs.length ≤ t.cap) :
    t.write bs fin = (.ok bs.length, t.add bs fin) := by
  unfold Tx.sealed at h
  simp only [Bool.or_eq_false_iff] at h
  obtain ⟨⟨⟨h1, h2⟩, h3⟩, h4⟩ := h
  unfold Tx.write Tx.add
  rw [if_neg (by simp [h4]), if_neg (by simp [h3]), if_neg (by
    rintro ⟨h5, h6⟩
    have : bs.length = 0 := by omega
    exact h6 (List.length_eq_zero_iff.mp this)), if_neg (by simp [h1, h2])]
  simp [h1, h2, hc, Nat.min_eq_left hc, List.take_of_length_le hc]

theorem Tx.write_sealed {t : Tx} {bs : Bytes} {fin : Bool} (h : t.sealed = true) (hb : bs ≠ [] ∨ fin = false) :
    ∃ e, t.write bs fin = (.error e, t) := by
  unfold Tx.sealed at h
  unfold Tx.write
  split
  · exact ⟨_, rfl⟩
  · split
    · exact ⟨_, rfl⟩
    · split
      · exact ⟨_, rfl⟩
      · rw [if_pos ⟨by simp_all, hb⟩]
        exact ⟨_, rfl⟩

theorem Tx.add_sealed {t : Tx} (h : t.sealed = false) (bs : Bytes) (fin : Bool) : (t.add bs fin).sealed = fin := by
  unfold Tx.sealed at h
  simp only [Bool.or_eq_false_iff] at h
  simp [Tx.sealed, Tx.add, h]

theorem Tx.add_add (t : Tx) (a b : Bytes) (f f' : Bool) : (t.add a f).add b f' = t.add (a ++ b) f' := by
  simp only [Tx.add, List.append_assoc, List.length_append, Nat.sub_sub]

theorem S.write_full {s : S} {id : Nat} {t : Tx} {bs : Bytes} (fin : Bool) (ht : s.tx id = some t) (h : t.sealed = false)
    (hc : bs.length ≤ t.cap) : s.write id bs fin = (.ok bs.length, s.setTx id (t.add bs fin)) := by
  unfold S.write
  rw [ht]
  dsimp only
  rw [Tx.write_full fin h hc]

theorem S.write_sealed {s : S} {id : Nat} {t : Tx} {bs : Bytes} {fin : Bool} (ht : s.tx id = some t) (h : t.sealed = true)
    (hb : bs ≠ [] ∨ fin = false) : ∃ e, s.write id bs fin = (.error e, s) := by
  obtain ⟨e, he⟩ := Tx.write_sealed h hb
  refine ⟨e, ?_⟩
  unfold S.write
  rw [ht]
  dsimp only
  rw [he, S.setTx_id ht]

theorem S.capacity_ok {s : S} {id n : Nat} (h : s.capacity id = .ok n) :
    ∃ t, s.tx id = some t ∧ t.cap = n ∧ t.stopped = false ∧ t.gone = false := by
  unfold S.capacity at h
  split at h
  · cases h
  · rename_i t ht
    unfold Tx.capacity at h
    split at h
    · cases h
    · rename_i h1
      simp only [Bool.or_eq_true, not_or, Bool.not_eq_true] at h1
      cases h
      exact ⟨t, ht, rfl, h1⟩

theorem S.capacity_err {s : S} {id : Nat} {e : Err} (h : s.capacity id = .error e) : ∀ t, s.tx id = some t → t.sealed = true := by
  intro t ht
  unfold S.capacity at h
  rw [ht] at h
  dsimp only at h
  unfold Tx.capacity at h
  split at h
  · rename_i h1
    unfold Tx.sealed
    simp only [Bool.or_eq_true] at h1 ⊢
    rcases h1 with h1 | h1 <;> simp [h1]
  · cases h

theorem bnd_ok {α β : Type} {a : α} {s : S} {k : α → S → R β} : bnd (.ok a, s) k = k a s := rfl
theorem bnd_error {α β : Type} {e : Err} {s : S} {k : α → S → R β} : bnd (.error e, s) k = (.error e, s) := rfl

/-- Two writes, the second of which follows the first. -/
theorem write_two {s : S} {id : Nat} {t : Tx} {a b : Bytes} {fin : Bool} (ht : s.tx id = some t) (hc : a.length + b.length ≤ t.cap)
    {β : Type} (k : Nat → S → R β) :
    ((∃ e, bnd (s.write id a false) (fun _ s => bnd (s.write id b fin) k) = (.error e, s)) ∧ t.sealed = true) ∨
    (t.sealed = false ∧ bnd (s.write id a false) (fun _ s => bnd (s.write id b fin) k) =
      k b.length (s.setTx id (t.add (a ++ b) fin))) := by
  cases h : t.sealed with
  | true =>
    obtain ⟨e, he⟩ := S.write_sealed (bs := a) (fin := false) ht h (.inr rfl)
    exact .inl ⟨⟨e, by rw [he]; rfl⟩, rfl⟩
  | false =>
    refine .inr ⟨rfl, ?_⟩
    rw [S.write_full false ht h (by omega), bnd_ok,
      S.write_full fin (S.setTx_at _ _ _) (Tx.add_sealed h _ _) (by simp only [Tx.add]; omega), bnd_ok, S.setTx_setTx, Tx.add_add]

/-! ### Frames -/

theorem wire_enc {ty : Nat} {p : Bytes} (h : ty < 2 ^ 62) (hp : p.length < 2 ^ 62) :
    Wire ty p (enc ty ++ enc p.length ++ p) := ⟨_, _, rfl, enc_isVarint h, enc_isVarint hp⟩

theorem frames_one {ty : Nat} {p w : Bytes} (h : Wire ty p w) : Frames [(ty, p)] w := .snoc .nil h

theorem frames_append {fs fs' : List (Nat × Bytes)} {a b : Bytes} (h : Frames fs a) (h' : Frames fs' b) : Frames (fs ++ fs') (a ++ b) := by
  induction h' with
  | nil => simpa using h
  | snoc _ hw ih =>
    rw [← List.append_assoc, ← List.append_assoc]
    exact .snoc ih hw

theorem draw_lt (n : Nat) : draw n < 2 ^ 62 := by
  have := Nat.mod_lt n (show 0 < greaseBound by decide)
  unfold draw greaseValue
  unfold greaseBound at *
  omega

theorem draw_unknown (n : Nat) : draw n ∉ knownFrames := by
  have h : draw n % 31 = 2 ∧ 33 ≤ draw n := by unfold draw greaseValue; omega
  intro hm
  simp only [knownFrames, List.mem_cons, List.not_mem_nil, or_false] at hm
  omega

/-- The frames without meaning. -/
def greaseFrames (a b : Nat) : List (Nat × Bytes) := [(a, []), (b, greaseText)]

/-- `s'` is `s` but for frames without meaning. -/
def Greased (s s' : S) (id : Nat) : Prop :=
  s' = { s with greased := s'.greased } ∨
  ∃ t a b w, s.tx id = some t ∧ t.sealed = false ∧ Frames (greaseFrames (draw a) (draw b)) w ∧
    s' = { s.setTx id (t.add w false) with greased := s'.greased }

/-- `s'` is `s` but for the entry of `id`, whose stream cannot be written. -/
def Forgot (s s' : S) (id : Nat) : Prop :=
  s' = s ∨ (s' = s.setEnt id none ∧ ∀ t, s.tx id = some t → t.sealed = true)

theorem forgetIf_forgot {s : S} {id : Nat} (h : ∀ t, s.tx id = some t → t.sealed = true) : Forgot s (s.forgetIf id) id := by
  unfold S.forgetIf
  split
  · exact .inr ⟨rfl, h⟩
  · exact .inl rfl

theorem sendGrease_cases {s : S} {id a b : Nat} {r : Except Err Unit} {s' : S} (h : s.sendGrease id (draw a) (draw b) = (r, s')) :
    (∃ e, r = .error e ∧ Forgot s s' id) ∨ (r = .ok () ∧ Greased s s' id) := by
  unfold S.sendGrease at h
  split at h
  · rename_i e he
    cases h
    exact .inl ⟨e, rfl, forgetIf_forgot (S.capacity_err he)⟩
  · rename_i cap hcap
    obtain ⟨t, ht, hc, _, _⟩ := S.capacity_ok hcap
    split at h
    · cases h
      exact .inr ⟨rfl, .inl rfl⟩
    · rename_i hlt
      have h0 : (enc 0).length = 1 := by decide
      have h18 : (enc 18).length = 1 := by decide
      cases hse : t.sealed with
      | true =>
        obtain ⟨e, he⟩ := S.write_sealed (bs := enc (draw a)) (fin := false) ht hse (.inr rfl)
        rw [he] at h
        cases h
        exact .inl ⟨e, rfl, .inl rfl⟩
      | false =>
        rw [S.write_full false ht hse (by omega), bnd_ok] at h
        rw [S.write_full false (S.setTx_at _ _ _) (Tx.add_sealed hse _ _) (by simp only [Tx.add]; omega), bnd_ok, S.setTx_setTx, Tx.add_add] at h
        rw [S.write_full false (S.setTx_at _ _ _) (Tx.add_sealed hse _ _) (by simp only [Tx.add, List.length_append]; omega), bnd_ok,
          S.setTx_setTx, Tx.add_add] at h
        rw [S.write_full false (S.setTx_at _ _ _) (Tx.add_sealed hse _ _) (by simp only [Tx.add, List.length_append]; omega), bnd_ok,
          S.setTx_setTx, Tx.add_add] at h
        rw [S.write_full false (S.setTx_at _ _ _) (Tx.add_sealed hse _ _) (by simp only [Tx.add, List.length_append]; omega), bnd_ok,
          S.setTx_setTx, Tx.add_add] at h
        cases h
        refine .inr ⟨rfl, .inr ⟨t, a, b, _, ht, hse, ?_, rfl⟩⟩
        have h1 : Wire (draw a) [] (enc (draw a) ++ enc 0 ++ []) := wire_enc (draw_lt a) (by simp)
        have h2 : Wire (draw b) greaseText (enc (draw b) ++ enc 18 ++ greaseText) := wire_enc (draw_lt b) (by decide)
        have := frames_append (frames_one h1) (frames_one h2)
        simpa [greaseFrames, List.append_assoc] using this

theorem greaseOnce_cases {s : S} {id : Nat} {g : Nat × Nat} {r : Except Err Unit} {s' : S} (h : s.greaseOnce id g = (r, s')) :
    (∃ e, r = .error e ∧ Forgot s s' id) ∨ (r = .ok () ∧ Greased s s' id) := by
  unfold S.greaseOnce at h
  split at h
  · cases hx : s.sendGrease id (draw g.1) (draw g.2) with
    | mk r1 s1 =>
      rw [hx] at h
      rcases sendGrease_cases hx with ⟨e, rfl, h1⟩ | ⟨rfl, h1⟩
      · cases h
        exact .inl ⟨e, rfl, h1⟩
      · cases h
        refine .inr ⟨rfl, ?_⟩
        rcases h1 with h1 | ⟨t, a, b, w, h1, h2, h3, h4⟩
        · exact .inl (by rw [h1])
        · exact .inr ⟨t, a, b, w, h1, h2, h3, by rw [h4]⟩
  · cases h
    exact .inr ⟨rfl, .inl rfl⟩

/-- What `encode_header_block` makes is a field section of the format. -/
theorem encodeBlock_ok {hs : List Qpack.Header} {block : Bytes} (h : encodeBlock hs = .ok block) :
    Qpack.IsBlock Qpack.IntShort Qpack.decodeTable block (hs.map Qpack.lowered) ∧ block.length < 2 ^ 62 := by
  unfold encodeBlock at h
  split at h
  · cases h
  · rename_i hb
    obtain ⟨bs, hw, hi⟩ := Qpack.encode_writes hs (fun x hx => by
      simp only [List.any_eq_true, not_exists, not_and, Bool.or_eq_true, decide_eq_true_eq, not_or, Nat.not_le] at hb
      have := hb x hx
      simp only [lenBound] at this
      omega)
    split at h
    · cases h
    · rename_i b hx
      split at h
      · cases h
      · rename_i hl
        cases h
        by_cases hr : bs.length ≤ (⟨List.replicate (hs.map (fun h => h.2.length + h.1.length + 32)).sum 0, 0⟩ : Cur).cap
        · obtain ⟨c', e1, w⟩ := hw.ok _ (by simp [Cur.WF]) hr
          rw [hx] at e1
          cases e1
          have : b.buf.take b.off = bs := by
            rw [w.off, w.buf]
            simp [Cur.overwrite]
          rw [this]
          refine ⟨hi, ?_⟩
          have h1 := w.off
          simp only [Nat.zero_add] at h1
          simp only [lenBound] at hl
          omega
        · obtain ⟨c', e1⟩ := hw.short (⟨List.replicate (hs.map (fun h => h.2.length + h.1.length + 32)).sum 0, 0⟩ : Cur) (by simp [Cur.WF]) (by omega)
          rw [hx] at e1
          cases e1

/-- A HEADERS frame with these headers has been written. -/
def Headed (s s' : S) (id : Nat) (hs : List Qpack.Header) (fin : Bool) : Prop :=
  ∃ t block w, s.tx id = some t ∧ t.sealed = false ∧ Qpack.IsBlock Qpack.IntShort Qpack.decodeTable block (hs.map Qpack.lowered) ∧
    Frames [(0x01, block)] w ∧ s' = (s.setTx id (t.add w fin)).headersSent id fin

theorem sendBlock_cases {s : S} {id : Nat} {hs : List Qpack.Header} {block : Bytes} {fin : Bool} {r : Except Err Unit} {s' : S}
    (hb : encodeBlock hs = .ok block) (h : s.sendBlock id block fin = (r, s')) :
    (∃ e, r = .error e ∧ Forgot s s' id) ∨ (r = .ok () ∧ Headed s s' id hs fin) := by
  obtain ⟨h1, h2⟩ := encodeBlock_ok hb
  unfold S.sendBlock at h
  split at h
  · rename_i e he
    cases h
    exact .inl ⟨e, rfl, forgetIf_forgot (S.capacity_err he)⟩
  · rename_i cap hcap
    obtain ⟨t, ht, hc, _, _⟩ := S.capacity_ok hcap
    split at h
    · cases h
      exact .inl ⟨_, rfl, .inl rfl⟩
    · rename_i hlt
      rcases write_two (a := enc 1 ++ enc block.length) (b := block) (fin := fin) ht (by rw [List.length_append]; omega)
        (fun _ s => ((.ok (), s.headersSent id fin) : R Unit)) with ⟨⟨e, q⟩, _⟩ | ⟨q1, q⟩
      · rw [q] at h
        cases h
        exact .inl ⟨e, rfl, .inl rfl⟩
      · rw [q] at h
        cases h
        exact .inr ⟨rfl, t, block, _, ht, q1, h1, frames_one (wire_enc (by decide) h2), rfl⟩

theorem sendHeaders_cases {s : S} {id : Nat} {hs : List Qpack.Header} {fin : Bool} {g : Nat × Nat} {r : Except Err Unit} {s' : S}
    (h : s.sendHeaders id hs fin g = (r, s')) :
    (∃ e s1, r = .error e ∧ Greased s s1 id ∧ Forgot s1 s' id) ∨ (r = .ok () ∧ ∃ s1, Greased s s1 id ∧ Headed s1 s' id hs fin) := by
  unfold S.sendHeaders at h
  cases hx : s.greaseOnce id g with
  | mk r1 s1 =>
    rw [hx] at h
    rcases greaseOnce_cases hx with ⟨e, rfl, h1⟩ | ⟨rfl, h1⟩
    · cases h
      exact .inl ⟨e, s, rfl, .inl rfl, h1⟩
    · rw [bnd_ok] at h
      split at h
      · rename_i e _
        obtain ⟨rfl, rfl⟩ := Prod.mk.inj h
        exact .inl ⟨e, _, rfl, h1, .inl rfl⟩
      · rename_i block hb
        rcases sendBlock_cases hb h with ⟨e, rfl, h2⟩ | ⟨rfl, h2⟩
        · exact .inl ⟨e, s1, rfl, h1, h2⟩
        · exact .inr ⟨rfl, s1, h1, h2⟩

theorem enc_mono {a b : Nat} (h : a ≤ b) (hb : b < 2 ^ 62) : (enc a).length ≤ (enc b).length := by
  have l1 := enc_length (v := a) (by omega)
  have l2 := enc_length (v := b) hb
  unfold varintLen maxVarInt at l1 l2
  (repeat' split at l1) <;> (repeat' split at l2) <;> simp only [Option.some.injEq, reduceCtorEq] at l1 l2 <;> omega

/-- A DATA frame with the first `n` bytes has been written. -/
def Bodied (s s' : S) (id : Nat) (body : Bytes) (n : Nat) (fin : Bool) : Prop :=
  ∃ t w, s.tx id = some t ∧ t.sealed = false ∧ n ≤ body.length ∧ (n = 0 → fin = true ∧ n = body.length) ∧
    Frames [(0x00, body.take n)] w ∧ s' = (if fin && n == body.length then (s.setTx id (t.add w true)).finishLocal id false
      else s.setTx id (t.add w false))

theorem sendBody_cases {s : S} {id : Nat} {body : Bytes} {fin : Bool} {r : Except Err Nat} {s' : S}
    (h : s.sendBody id body fin = (r, s')) :
    (∃ e, r = .error e ∧ Forgot s s' id) ∨
    (∃ n e, r = .ok n ∧ id % 4 = 0 ∧ s.ent id = some e ∧ e.localInit = true ∧ e.trailersSent = false ∧ Bodied s s' id body n fin) := by
  unfold S.sendBody at h
  split at h
  · cases h; exact .inl ⟨_, rfl, .inl rfl⟩
  rename_i hlen
  split at h
  · cases h; exact .inl ⟨_, rfl, .inl rfl⟩
  rename_i hid
  split at h
  · cases h; exact .inl ⟨_, rfl, .inl rfl⟩
  rename_i e he
  split at h
  · cases h; exact .inl ⟨_, rfl, .inl rfl⟩
  rename_i hli
  split at h
  · cases h; exact .inl ⟨_, rfl, .inl rfl⟩
  rename_i hts
  split at h
  · cases h; exact .inl ⟨_, rfl, .inl rfl⟩
  rename_i hz
  split at h
  · rename_i e he
    cases h
    exact .inl ⟨e, rfl, forgetIf_forgot (S.capacity_err he)⟩
  rename_i cap hcap
  obtain ⟨t, ht, hc, _, _⟩ := S.capacity_ok hcap
  dsimp only at h
  split at h
  · cases h; exact .inl ⟨_, rfl, .inl rfl⟩
  rename_i hcov
  generalize hn : min body.length (cap - ((enc 0).length + (enc body.length).length)) = n at h
  generalize hf : (if n ≠ body.length then false else fin) = fin' at h
  split at h
  · cases h; exact .inl ⟨_, rfl, .inl rfl⟩
  rename_i hz2
  have hnl : n ≤ body.length := by omega
  have hmono : (enc n).length ≤ (enc body.length).length := by
    simp only [lenBound] at hlen
    exact enc_mono hnl (by omega)
  have hff : (fin && n == body.length) = fin' := by
    rw [← hf]
    by_cases e : n = body.length <;> simp [e]
  unfold S.sendData at h
  rcases write_two (a := enc 0 ++ enc n) (b := body.take n) (fin := fin') ht (by
    rw [List.length_append, List.length_take, Nat.min_eq_left hnl]; omega)
    (fun written s => ((if written ≠ n then (.error .internalError, s)
      else if fin' && written == body.length then (.ok written, s.finishLocal id false)
      else (.ok written, s)) : R Nat)) with ⟨⟨e, q⟩, _⟩ | ⟨q1, q⟩
  · rw [q] at h
    cases h
    exact .inl ⟨e, rfl, .inl rfl⟩
  · rw [q, List.length_take, Nat.min_eq_left hnl, if_neg (by simp)] at h
    have hw : Frames [(0x00, body.take n)] (enc 0 ++ enc n ++ body.take n) := by
      have := wire_enc (ty := 0) (p := body.take n) (by decide) (by
        simp only [lenBound] at hlen; rw [List.length_take]; omega)
      rw [List.length_take, Nat.min_eq_left hnl] at this
      exact frames_one this
    have hz3 : n = 0 → fin = true ∧ n = body.length := by
      intro h0
      have : ¬ fin' = false := fun hf' => hz2 ⟨h0, hf'⟩
      rw [← hff] at this
      simpa using this
    have hfl : (fin' && n == body.length) = fin' := by
      cases hb : fin' with
      | false => rfl
      | true => rw [← hff] at hb; simp only [Bool.and_eq_true] at hb; simp [hb.2]
    refine .inr ?_
    cases hb : fin' with
    | true =>
      rw [hfl, hb, if_pos rfl] at h
      cases h
      exact ⟨n, e, rfl, by omega, he, by simpa using hli, by simpa using hts, t, _, ht, q1, hnl, hz3, hw, by rw [hff, hb, if_pos rfl]⟩
    | false =>
      rw [hfl, hb, if_neg (by decide)] at h
      cases h
      exact ⟨n, e, rfl, by omega, he, by simpa using hli, by simpa using hts, t, _, ht, q1, hnl, hz3, hw, by
        rw [hff, hb, if_neg (by decide)]⟩

end Verif.H3.Send
