import Verif.Tp.Decode

namespace Verif.Tp
open Verif Verif.Io

/-- An entry that may be missing. -/
def opt (id : Nat) (o : Option Bytes) : List Entry :=
  match o with
  | none => []
  | some v => [(id, v)]

/-- The value of an integer parameter that is left out if it is `d`. -/
def ifNot (d v : Nat) : Option Bytes := if v = d then none else some (enc v)

def onServer (s : Bool) (o : Option Bytes) : Option Bytes := if s then o else none

/-- The entries that are written. -/
def entries (tp : Params) (s : Bool) : List Entry :=
  opt 0x00 (onServer s tp.originalDcid) ++ (opt 0x01 (ifNot 0 tp.maxIdleTimeout) ++
  (opt 0x02 (onServer s (tp.resetToken.map (beBytes 16))) ++ (opt 0x03 (ifNot 0 tp.maxUdpPayload) ++
  (opt 0x04 (ifNot 0 tp.maxData) ++ (opt 0x05 (ifNot 0 tp.maxStreamDataBidiLocal) ++
  (opt 0x06 (ifNot 0 tp.maxStreamDataBidiRemote) ++ (opt 0x07 (ifNot 0 tp.maxStreamDataUni) ++
  (opt 0x08 (ifNot 0 tp.maxStreamsBidi) ++ (opt 0x09 (ifNot 0 tp.maxStreamsUni) ++
  (opt 0x0a (ifNot 0 tp.ackDelayExponent) ++ (opt 0x0b (ifNot 0 tp.maxAckDelay) ++
  (opt 0x0c (if tp.disableMigration then some [] else none) ++ (opt 0x0e (ifNot 2 tp.activeCidLimit) ++
  (opt 0x0f tp.initialScid ++ (opt 0x10 (onServer s tp.retryScid) ++
  opt 0x20 (tp.maxDatagram.map enc))))))))))))))))

/-- What can be written at all. -/
structure Encodable (tp : Params) : Prop where
  maxIdleTimeout : tp.maxIdleTimeout < 2 ^ 62
  maxUdpPayload : tp.maxUdpPayload < 2 ^ 62
  maxData : tp.maxData < 2 ^ 62
  maxStreamDataBidiLocal : tp.maxStreamDataBidiLocal < 2 ^ 62
  maxStreamDataBidiRemote : tp.maxStreamDataBidiRemote < 2 ^ 62
  maxStreamDataUni : tp.maxStreamDataUni < 2 ^ 62
  maxStreamsBidi : tp.maxStreamsBidi < 2 ^ 62
  maxStreamsUni : tp.maxStreamsUni < 2 ^ 62
  ackDelayExponent : tp.ackDelayExponent ≤ 20
  maxAckDelay : tp.maxAckDelay < 2 ^ 62
  activeCidLimit : tp.activeCidLimit < 2 ^ 62
  maxDatagram : ∀ v, tp.maxDatagram = some v → v < 2 ^ 62
  originalDcid : ∀ v, tp.originalDcid = some v → v.length < 2 ^ 62
  initialScid : ∀ v, tp.initialScid = some v → v.length < 2 ^ 62
  retryScid : ∀ v, tp.retryScid = some v → v.length < 2 ^ 62

/-- The bytes of an entry. -/
def entryBytes (e : Entry) : Bytes := enc e.1 ++ (enc e.2.length ++ e.2)

def bytesOf (es : List Entry) : Bytes := es.flatMap entryBytes

theorem enc_spells {v : Nat} (h : v < 2 ^ 62) : (Field.int v).Spells (enc v) := by
  obtain ⟨n, h1, h2, h3⟩ := varintLen_spec h
  unfold enc; rw [h1]; exact isVarint_enc h2 h3

theorem leads_enc {v : Nat} (h : v < 2 ^ 62) : Leads (enc v) v := ⟨enc v, [], by simp, enc_spells h⟩

theorem enc_short {v : Nat} (h : v < 2 ^ 62) : (enc v).length ≤ 8 := by
  rcases enc_spells h with h | h | h | h <;> omega

theorem writes_raw {ty : Nat} {v : Bytes} (h1 : ty < 2 ^ 62) (h2 : v.length < 2 ^ 62) :
    Writes (putRaw ty v) (bytesOf [(ty, v)]) () := by
  have : bytesOf [(ty, v)] = (enc ty ++ enc v.length) ++ v := by simp [bytesOf, entryBytes]
  rw [this]
  unfold putRaw encodeParam
  exact ((writes_varint h1).bind (writes_varint h2)).bind (writes_bytes v)

theorem writes_int {ty v mx : Nat} (h1 : ty < 2 ^ 62) (h2 : v < 2 ^ 62) (h3 : v ≤ mx) :
    Writes (putInt ty v mx) (bytesOf [(ty, enc v)]) () := by
  have e : bytesOf [(ty, enc v)] = (enc ty ++ enc (enc v).length) ++ enc v := by simp [bytesOf, entryBytes]
  rw [e]
  unfold putInt encodeParam
  rw [if_pos h3, enc_length h2]
  have := enc_short h2
  exact ((writes_varint h1).bind (writes_varint (by omega))).bind (writes_varint h2)

theorem writes_doIf {b : Bool} {p : P Unit} {bs : Bytes} (h : b = true → Writes p bs ()) :
    Writes (doIf b p) (if b then bs else []) () := by
  unfold doIf
  cases b
  · exact Writes.pure ()
  · exact h rfl

theorem writes_optInt {ty v mx d : Nat} (h1 : ty < 2 ^ 62) (h2 : v < 2 ^ 62) (h3 : v ≤ mx) :
    Writes (doIf (v != d) (putInt ty v mx)) (bytesOf (opt ty (ifNot d v))) () := by
  unfold doIf ifNot
  by_cases h : v = d
  · simp only [h, bne_self_eq_false, if_true]; exact Writes.pure ()
  · have : (v != d) = true := by simpa using h
    rw [this, if_pos rfl, if_neg h]
    exact writes_int h1 h2 h3

theorem writes_server {ty : Nat} {o : Option Bytes} {s : Bool} (h1 : ty < 2 ^ 62) (h2 : ∀ v, o = some v → v.length < 2 ^ 62) :
    Writes (doIf s (doSome o (putRaw ty))) (bytesOf (opt ty (onServer s o))) () := by
  unfold doIf doSome onServer
  cases s
  · exact Writes.pure ()
  · cases o with
    | none => exact Writes.pure ()
    | some v => exact writes_raw h1 (h2 v rfl)

theorem bytesOf_append (a b : List Entry) : bytesOf (a ++ b) = bytesOf a ++ bytesOf b := by simp [bytesOf]

/-- The writer writes the entries. -/
theorem writes_put {tp : Params} (h : Encodable tp) (s : Bool) : Writes (put tp s) (bytesOf (entries tp s)) () := by
  have hex : tp.ackDelayExponent < 2 ^ 62 := by have := h.ackDelayExponent; omega
  have le : ∀ {v : Nat}, v < 2 ^ 62 → v ≤ maxVarInt := by intro v hv; simp only [maxVarInt]; omega
  unfold put entries
  simp only [bytesOf_append]
  refine (writes_server (by decide) h.originalDcid).bind ?_
  refine (writes_optInt (by decide) h.maxIdleTimeout (le h.maxIdleTimeout)).bind ?_
  refine Writes.bind (a := ()) ?_ ?_
  · have : (doIf s (doSome tp.resetToken fun t => putRaw 0x02 (beBytes 16 t))) =
        doIf s (doSome (tp.resetToken.map (beBytes 16)) (putRaw 0x02)) := by
      cases tp.resetToken <;> rfl
    rw [this]
    refine writes_server (by decide) ?_
    intro v hv
    cases ht : tp.resetToken with
    | none => rw [ht] at hv; cases hv
    | some t => rw [ht] at hv; cases hv; simp
  refine (writes_optInt (by decide) h.maxUdpPayload (le h.maxUdpPayload)).bind ?_
  refine (writes_optInt (by decide) h.maxData (le h.maxData)).bind ?_
  refine (writes_optInt (by decide) h.maxStreamDataBidiLocal (le h.maxStreamDataBidiLocal)).bind ?_
  refine (writes_optInt (by decide) h.maxStreamDataBidiRemote (le h.maxStreamDataBidiRemote)).bind ?_
  refine (writes_optInt (by decide) h.maxStreamDataUni (le h.maxStreamDataUni)).bind ?_
  refine (writes_optInt (by decide) h.maxStreamsBidi (le h.maxStreamsBidi)).bind ?_
  refine (writes_optInt (by decide) h.maxStreamsUni (le h.maxStreamsUni)).bind ?_
  refine (writes_optInt (by decide) hex h.ackDelayExponent).bind ?_
  refine (writes_optInt (by decide) h.maxAckDelay (le h.maxAckDelay)).bind ?_
  refine Writes.bind (a := ()) ?_ ?_
  · cases tp.disableMigration
    · exact Writes.pure ()
    · exact (writes_varint (by decide)).bind (writes_varint (by decide))
  refine (writes_optInt (by decide) h.activeCidLimit (le h.activeCidLimit)).bind ?_
  refine Writes.bind (a := ()) ?_ ?_
  · unfold doSome
    cases hi : tp.initialScid with
    | none => exact Writes.pure ()
    | some v => exact writes_raw (by decide) (h.initialScid v hi)
  refine (writes_server (by decide) h.retryScid).bind ?_
  unfold doSome
  cases hd : tp.maxDatagram with
  | none => exact Writes.pure ()
  | some v => exact writes_int (by decide) (h.maxDatagram v hd) (le (h.maxDatagram v hd))

theorem encode_eq {tp : Params} (h : Encodable tp) (s : Bool) (room : Nat) :
    encode tp s room = if (bytesOf (entries tp s)).length ≤ room then .ok (bytesOf (entries tp s)) else .error .bufferTooShort := by
  have hw := writes_put h s
  have hwf := withSlice_wf (List.replicate room 0)
  have hcap : (Cur.withSlice (List.replicate room 0)).cap = room := by simp [Cur.cap, Cur.withSlice]
  unfold encode
  by_cases hr : (bytesOf (entries tp s)).length ≤ room
  · obtain ⟨c, e, w⟩ := hw.ok _ hwf (by rw [hcap]; exact hr)
    rw [e, if_pos hr]
    simp only
    congr 1
    have := Wr.rest w
    have e0 : (Cur.withSlice (List.replicate room 0)).off = 0 := rfl
    rw [e0, List.drop_zero] at this
    rw [w.off, e0, Nat.zero_add, this, List.take_left]
  · obtain ⟨c, e⟩ := hw.short _ hwf (by rw [hcap]; omega)
    rw [e, if_neg hr]; rfl

/-! ### Reading the entries back -/

theorem lookup_opt {id k : Nat} {o : Option Bytes} {l : List Entry} :
    (opt k o ++ l).lookup id = if id = k then o.or (l.lookup id) else l.lookup id := by
  cases o with
  | none => simp [opt]
  | some v =>
    show ((k, v) :: l).lookup id = _
    rw [lookup_cons]; simp

theorem lookup_opt' {id k : Nat} {o : Option Bytes} : (opt k o).lookup id = if id = k then o else none := by
  have := lookup_opt (id := id) (k := k) (o := o) (l := [])
  rw [List.append_nil] at this
  rw [this]; simp [lookup_nil]

theorem mem_opt {k : Nat} {o : Option Bytes} {e : Entry} : e ∈ opt k o ↔ e.1 = k ∧ o = some e.2 := by
  obtain ⟨i, v⟩ := e
  cases o with
  | none => simp [opt]
  | some w =>
    simp only [opt, List.mem_cons, Prod.mk.injEq, List.not_mem_nil, or_false, Option.some.injEq]
    exact ⟨fun ⟨a, b⟩ => ⟨a, b.symm⟩, fun ⟨a, b⟩ => ⟨a, b.symm⟩⟩

theorem opt_sub {k : Nat} {o : Option Bytes} {es : List Entry} {ks : List Nat} (h : (es.map Prod.fst).Sublist ks) :
    ((opt k o ++ es).map Prod.fst).Sublist (k :: ks) := by
  cases o with
  | none => exact h.cons k
  | some v => exact h.cons₂ k

theorem opt_sub' {k : Nat} {o : Option Bytes} : ((opt k o).map Prod.fst).Sublist [k] := by
  cases o with
  | none => exact List.nil_sublist _
  | some v => exact List.Sublist.refl _

theorem entries_ids (tp : Params) (s : Bool) : ((entries tp s).map Prod.fst).Sublist
    [0x00, 0x01, 0x02, 0x03, 0x04, 0x05, 0x06, 0x07, 0x08, 0x09, 0x0a, 0x0b, 0x0c, 0x0e, 0x0f, 0x10, 0x20] := by
  unfold entries
  iterate 16 (refine opt_sub ?_)
  exact opt_sub'

theorem entries_nodup (tp : Params) (s : Bool) : ((entries tp s).map Prod.fst).Nodup :=
  (entries_ids tp s).nodup (by decide)

theorem entry_small {tp : Params} (h : Encodable tp) {s : Bool} {e : Entry} (he : e ∈ entries tp s) :
    e.1 < 2 ^ 62 ∧ e.2.length < 2 ^ 62 := by
  have hex : tp.ackDelayExponent < 2 ^ 62 := by have := h.ackDelayExponent; omega
  refine ⟨?_, ?_⟩
  · have := (entries_ids tp s).subset (List.mem_map.mpr ⟨e, he, rfl⟩)
    simp only [List.mem_cons, List.not_mem_nil, or_false] at this
    omega
  · have key : ∀ {d v : Nat} {x : Bytes}, v < 2 ^ 62 → ifNot d v = some x → x.length < 2 ^ 62 := by
      intro d v x hv hu
      unfold ifNot at hu
      split at hu
      · cases hu
      · cases hu; have := enc_short hv; omega
    have srv : ∀ {o : Option Bytes} {x : Bytes}, onServer s o = some x → o = some x := by
      intro o x hx; unfold onServer at hx; split at hx
      · exact hx
      · cases hx
    unfold entries at he
    simp only [List.mem_append, mem_opt] at he
    rcases he with ⟨_, he⟩ | ⟨_, he⟩ | ⟨_, he⟩ | ⟨_, he⟩ | ⟨_, he⟩ | ⟨_, he⟩ | ⟨_, he⟩ | ⟨_, he⟩ | ⟨_, he⟩ | ⟨_, he⟩ | ⟨_, he⟩ |
      ⟨_, he⟩ | ⟨_, he⟩ | ⟨_, he⟩ | ⟨_, he⟩ | ⟨_, he⟩ | ⟨_, he⟩
    · exact h.originalDcid _ (srv he)
    · exact key h.maxIdleTimeout he
    · have := srv he
      cases ht : tp.resetToken with
      | none => rw [ht] at this; cases this
      | some t =>
        rw [ht] at this
        have := Option.some.inj this
        rw [← this]; simp
    · exact key h.maxUdpPayload he
    · exact key h.maxData he
    · exact key h.maxStreamDataBidiLocal he
    · exact key h.maxStreamDataBidiRemote he
    · exact key h.maxStreamDataUni he
    · exact key h.maxStreamsBidi he
    · exact key h.maxStreamsUni he
    · exact key hex he
    · exact key h.maxAckDelay he
    · split at he
      · have := Option.some.inj he
        rw [← this]; simp
      · cases he
    · exact key h.activeCidLimit he
    · exact h.initialScid _ he
    · exact h.retryScid _ (srv he)
    · cases hd : tp.maxDatagram with
      | none => rw [hd] at he; cases he
      | some v =>
        rw [hd] at he
        have e := Option.some.inj he
        have := enc_short (h.maxDatagram v hd)
        rw [← e]; omega

theorem entries_wire {tp : Params} (h : Encodable tp) (s : Bool) : Wire (entries tp s) (bytesOf (entries tp s)) := by
  have key : ∀ es : List Entry, (∀ e ∈ es, e.1 < 2 ^ 62 ∧ e.2.length < 2 ^ 62) → Wire es (bytesOf es) := by
    intro es
    induction es with
    | nil => intro _; rfl
    | cons e es ih =>
      intro hs
      unfold Wire bytesOf
      rw [List.flatMap_cons, List.flatMap_cons]
      obtain ⟨h1, h2⟩ := hs e (List.mem_cons_self ..)
      refine spells_append.mpr ⟨_, _, rfl, ?_, ih fun x hx => hs x (List.mem_cons_of_mem _ hx)⟩
      exact ⟨_, _, rfl, enc_spells h1, _, _, rfl, enc_spells h2, _, [], by simp, rfl, rfl⟩
  exact key _ fun e he => entry_small h he

end Verif.Tp
