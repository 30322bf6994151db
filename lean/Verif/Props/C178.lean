import Verif.H3.Uni
import Verif.Props.C99
import Verif.Props.C115
import Verif.H3.Sent

/-!
C178: the unidirectional streams of an HTTP/3 endpoint: their types, the control stream with
SETTINGS first and whole frames after it, and PRIORITY_UPDATE.
-/

namespace Verif.Props.C178
open Verif Verif.H3 Verif.H3.Uni

/-! ### Specification -/

/-- What a call says, as a frame (RFC 9114, section 7.2.6; RFC 9218, sections 4 and 7.2): type and
payload. -/
inductive Says : Call → Nat → Bytes → Prop where
  | goaway (id : Nat) (a : Bytes) : IsVarint id a → Says (.goaway id) 0x07 a
  | urgency (id u : Nat) (a : Bytes) (d : UInt8) : IsVarint id a → d.toNat = 0x30 + min u 7 →
      Says (.priority id u false) 0xf0700 (a ++ [0x75, 0x3d, d])
  | incremental (id u : Nat) (a : Bytes) (d : UInt8) : IsVarint id a → d.toNat = 0x30 + min u 7 →
      Says (.priority id u true) 0xf0700 (a ++ [0x75, 0x3d, d, 0x2c, 0x69])

/-- Whole frames, one for each call. -/
inductive Carried : List Call → Bytes → Prop where
  | nil : Carried [] []
  | snoc {l : List Call} {w : Bytes} (c : Call) (ty : Nat) (p f : Bytes) :
      Carried l w → Says c ty p → Wire ty p f → Carried (l ++ [c]) (w ++ f)

/-- A new connection. -/
structure Fresh (u : U) : Prop where
  st : u.st = fun _ => none
  next : u.next = if u.isServer then 3 else 2
  control : u.control = none
  enc : u.enc = none
  dec : u.dec = none
  goaway : u.goaway = none
  closed : u.closed = none

/-- The SETTINGS frame. -/
def settings (u : U) (c : Config) (dgram : Bool) (g : Nat × Nat × Nat) : Except Err Bytes :=
  c.sent dgram (if u.grease then some (g.1 % greaseBound, g.2.1 % greaseBound) else none)

/-- After `with_transport` and `l`. -/
def after (u : U) (c : Config) (dgram : Bool) (g : Nat × Nat × Nat) (l : List Uni.Act) : U :=
  (X.run { u := (u.withTransport c dgram g).2 } l).u

/-- The calls accepted. -/
def accepted (u : U) (c : Config) (dgram : Bool) (g : Nat × Nat × Nat) (l : List Uni.Act) : List Call :=
  (X.run { u := (u.withTransport c dgram g).2 } l).log

/-! ### Opening a stream -/

/-- A stream on which nothing was sent. -/
def Blank (u : U) (id : Nat) : Prop :=
  ∀ t, u.st id = some t → t.out = [] ∧ t.fin = false ∧ t.stopped = false ∧ t.room = u.first

theorem upd_self {α : Type} (f : Nat → α) (i : Nat) (a : α) : upd f i a i = a := by simp [upd]
theorem upd_ne {α : Type} (f : Nat → α) {i j : Nat} (a : α) (h : j ≠ i) : upd f i a j = f j := by simp [upd, h]
theorem upd_upd {α : Type} (f : Nat → α) (i : Nat) (a b : α) : upd (upd f i a) i b = upd f i b := by
  funext j; simp only [upd]; split <;> rfl

/-- Sending on a stream on which more can be sent. -/
theorem send_some {u : U} {id : Nat} {t : Tx} {bs : Bytes} {fin : Bool} (ht : u.st id = some t)
    (hs : t.stopped = false) (hf : t.fin = false) (hb : bs ≠ []) :
    (min (min bs.length u.cap) t.room = 0 ∧ u.send id bs fin = (.error .done, u.set id t)) ∨
    (0 < min (min bs.length u.cap) t.room ∧ u.send id bs fin = (.ok (min (min bs.length u.cap) t.room),
      { u with
        st := upd u.st id (some { t with
          out := t.out ++ bs.take (min (min bs.length u.cap) t.room)
          room := t.room - min (min bs.length u.cap) t.room
          fin := fin && decide (min (min bs.length u.cap) t.room = bs.length) })
        cap := u.cap - min (min bs.length u.cap) t.room })) := by
  have hm : u.make id = some t := by unfold U.make; rw [ht]
  have hbl : 0 < bs.length := List.length_pos_iff.mpr hb
  by_cases h0 : u.cap = 0
  · left
    refine ⟨by omega, ?_⟩
    unfold U.send
    rw [hm]
    simp [hs, h0, hb]
  · by_cases hn : min (min bs.length u.cap) t.room = 0
    · left
      refine ⟨hn, ?_⟩
      unfold U.send
      rw [hm]
      simp only [hs, h0, hf, hn]
      simp [hb]
    · right
      refine ⟨by omega, ?_⟩
      unfold U.send
      rw [hm]
      simp only [hs, h0, hf, hn, hb, U.set]
      simp

theorem enc_ne {v : Nat} (h : v < 2 ^ 62) : Io.enc v ≠ [] := by
  intro hx
  have := enc_isVarint h
  rw [hx] at this
  rcases this with h | h | h | h <;> simp at h

/-- The urgency of a stream, by its type. -/
def urg (ty : Nat) : Nat := if ty = 0 ∨ ty = 2 ∨ ty = 3 then 0 else 255

theorem openUni_spec {u : U} {ty : Nat} (hty : ty < 2 ^ 62) (hb : Blank u u.next) :
    ((u.next / 4 < u.lim ∨ u.st u.next ≠ none) ∧
      0 < min (min (Io.enc ty).length u.cap) u.first ∧
      u.openUni ty = (.ok u.next,
      { u with
        st := upd u.st u.next (some {
          out := (Io.enc ty).take (min (min (Io.enc ty).length u.cap) u.first)
          fin := false
          room := u.first - min (min (Io.enc ty).length u.cap) u.first
          stopped := false
          urgency := urg ty })
        cap := u.cap - min (min (Io.enc ty).length u.cap) u.first
        next := u.next + 4 })) ∨
    (∃ e st', u.openUni ty = (.error e, { u with st := st' }) ∧ (∀ id, id ≠ u.next → st' id = u.st id) ∧
      Blank { u with st := st' } u.next ∧
      ((e = .transport ∧ ¬ u.next / 4 < u.lim ∧ u.st u.next = none) ∨
        (e = .done ∧ min u.cap u.first = 0))) := by
  unfold U.openUni U.priority
  cases hm : u.make u.next with
  | none =>
    right
    have hst : ¬ u.next / 4 < u.lim ∧ u.st u.next = none := by
      unfold U.make at hm
      split at hm
      · cases hm
      next hn =>
        split at hm
        · cases hm
        next hl => exact ⟨hl, hn⟩
    exact ⟨.transport, u.st, rfl, fun _ _ => rfl, hb, Or.inl ⟨rfl, hst⟩⟩
  | some t =>
    have hfr : t.out = [] ∧ t.fin = false ∧ t.stopped = false ∧ t.room = u.first ∧ (u.next / 4 < u.lim ∨ u.st u.next ≠ none) := by
      unfold U.make at hm
      split at hm
      next t' ht' =>
        simp only [Option.some.injEq] at hm
        subst hm
        obtain ⟨a, b, c, d⟩ := hb t' ht'
        exact ⟨a, b, c, d, Or.inr (by rw [ht']; simp)⟩
      next hn =>
        split at hm
        next hl =>
          simp only [Option.some.injEq] at hm
          subst hm
          exact ⟨rfl, rfl, rfl, rfl, Or.inl hl⟩
        · cases hm
    obtain ⟨h1, h2, h3, h4, h5⟩ := hfr
    have hpr : (if ty = 0 ∨ ty = 2 ∨ ty = 3 then 0 else 255) = urg ty := rfl
    simp only [bnd, hpr]
    have hset : (u.set u.next { t with urgency := urg ty }).next = u.next := rfl
    have hst : (u.set u.next { t with urgency := urg ty }).st u.next = some { t with urgency := urg ty } := upd_self _ _ _
    have hne := enc_ne hty
    have hlen : 0 < (Io.enc ty).length := List.length_pos_iff.mpr hne
    rcases send_some (fin := false) hst h3 h2 hne with ⟨hz, hsend⟩ | ⟨hp, hsend⟩
    · right
      refine ⟨.done, upd u.st u.next (some { t with urgency := urg ty }), ?_, ?_, ?_, Or.inr ⟨rfl, ?_⟩⟩
      · rw [hset, hsend]
        simp only [U.set, upd_upd]
      · intro id hid
        exact upd_ne _ _ hid
      · intro t' ht'
        simp only [upd_self, Option.some.injEq] at ht'
        subst ht'
        exact ⟨h1, h2, h3, h4⟩
      · simp only [U.set, h4] at hz
        omega
    · left
      refine ⟨h5, ?_, ?_⟩
      · simp only [U.set, h4] at hp; exact hp
      · rw [hset, hsend]
        simp only [U.set, upd_upd, h1, h2, h3, h4, List.nil_append, Bool.false_and]

/-! ### What holds after `with_transport` -/

/-- What stands on the streams; `b` is what was sent on the control stream at the opening. -/
structure Good (base : Nat) (b : Bytes) (gr : Bytes) (u : U) (l : List Call) : Prop where
  control : u.control = some base
  ctl : ∃ t w, u.st base = some t ∧ t.out = b ++ w ∧ Carried l w ∧ t.fin = false ∧ t.urgency = 0
  enc : ∀ e, u.enc = some e → ∃ t, u.st e = some t ∧ t.out = [2] ∧ t.fin = false ∧ t.urgency = 0
  dec : ∀ e, u.dec = some e → ∃ t, u.st e = some t ∧ t.out = [3] ∧ t.fin = false ∧ t.urgency = 0
  ids : (u.enc = none ∧ (u.dec = none ∨ u.dec = some (base + 4))) ∨
    (u.enc = some (base + 4) ∧ (u.dec = none ∨ u.dec = some (base + 8)))
  other : ∀ id t, u.st id = some t → some id ≠ u.control → some id ≠ u.enc → some id ≠ u.dec → t.out ≠ [] →
    id + 4 = u.next ∧ t.urgency = 255 ∧ t.out <+: gr ∧ (t.fin = true ↔ t.out = gr)
  exact : ∀ id, (∃ t, u.st id = some t ∧ t.out ≠ []) ↔ base ≤ id ∧ id < u.next ∧ id % 4 = base % 4

theorem enc0 : Io.enc 0 = [0] := by decide +kernel
theorem enc2 : Io.enc 2 = [2] := by decide +kernel
theorem enc3 : Io.enc 3 = [3] := by decide +kernel

/-- The bytes of the control stream after opening. -/
def opening (u : U) (s : Bytes) : Bytes := [0] ++ s.take (min u.first u.cap - 1)

theorem settings_spec {u : U} (hf : Fresh u) {c : Config} {dgram : Bool} {g : Nat × Nat} :
    (∃ s st room cap, (c.sent dgram (if u.grease then some (g.1 % greaseBound, g.2 % greaseBound) else none)) = .ok s ∧
      u.sendSettings c dgram g = (.ok (), { u with st := st, cap := cap, next := u.next + 4, control := some u.next }) ∧
      st u.next = some { out := opening u s, fin := false, room := room, stopped := false, urgency := 0 } ∧
      (∀ id, id ≠ u.next → st id = none)) ∨
    (∃ e u', u.sendSettings c dgram g = (.error e, u') ∧
      ((u.lim = 0 ∧ e = .transport) ∨ (min u.first u.cap = 0 ∧ e = .internalError) ∨
        (min u.first u.cap = 1 ∧ e = .done) ∨
        (c.sent dgram (if u.grease then some (g.1 % greaseBound, g.2 % greaseBound) else none)) = .error e)) := by
  have hb : Blank u u.next := by intro t ht; rw [hf.st] at ht; cases ht
  have hn4 : u.next / 4 = 0 := by rw [hf.next]; split <;> rfl
  unfold U.sendSettings
  rcases openUni_spec (ty := 0) (by decide) hb with ⟨_, hp, ho⟩ | ⟨e, st', ho, h1, h2, h3⟩
  · rw [ho]
    have hmin : min (min (Io.enc 0).length u.cap) u.first = 1 := by
      rw [enc0] at hp ⊢
      simp only [List.length_singleton] at hp ⊢
      omega
    rw [hmin]
    have htake : (Io.enc 0).take 1 = [0] := by rw [enc0]; rfl
    rw [htake]
    simp only
    cases hs : c.sent dgram (if u.grease then some (g.1 % greaseBound, g.2 % greaseBound) else none) with
    | error e =>
      right
      exact ⟨e, _, rfl, by simp⟩
    | ok s =>
      simp only
      by_cases hse : s = []
      · left
        subst hse
        refine ⟨[], upd u.st u.next (some { out := [0], fin := false, room := u.first - 1, stopped := false, urgency := 0 }),
          u.first - 1, u.cap - 1, rfl, ?_, ?_, ?_⟩
        · simp [bnd, U.send, U.make, upd_self, U.set, upd_upd, urg]
        · simp [upd_self, opening]
        · intro id hid
          rw [upd_ne _ _ hid, hf.st]
      · rcases send_some (fin := false) (u := { u with
            st := upd u.st u.next (some { out := [0], fin := false, room := u.first - 1, stopped := false, urgency := urg 0 })
            cap := u.cap - 1
            next := u.next + 4
            control := some u.next }) (id := u.next) (bs := s) (upd_self _ _ _) rfl rfl hse with ⟨hz, hsend⟩ | ⟨hpp, hsend⟩
        · right
          rw [hsend]
          refine ⟨.done, _, rfl, Or.inr (Or.inr (Or.inl ⟨?_, rfl⟩))⟩
          have : 0 < s.length := List.length_pos_iff.mpr hse
          simp only at hz
          rw [enc0] at hp
          simp only [List.length_singleton] at hp
          omega
        · left
          rw [hsend]
          refine ⟨s, upd u.st u.next (some { out := opening u s, fin := false, room := u.first - 1 - min (min s.length (u.cap - 1)) (u.first - 1), stopped := false, urgency := 0 }),
            u.first - 1 - min (min s.length (u.cap - 1)) (u.first - 1),
            u.cap - 1 - min (min s.length (u.cap - 1)) (u.first - 1), rfl, ?_, upd_self _ _ _, ?_⟩
          · have htk : s.take (min (min s.length (u.cap - 1)) (u.first - 1)) = s.take (min u.first u.cap - 1) := by
              rw [List.take_eq_take_iff]
              omega
            simp only [bnd, upd_upd, urg, opening, htk]
            simp
          · intro id hid
            rw [upd_ne _ _ hid, hf.st]
  · right
    rw [ho]
    rcases h3 with ⟨rfl, hl, _⟩ | ⟨rfl, hz⟩
    · exact ⟨.transport, _, rfl, Or.inl ⟨by omega, rfl⟩⟩
    · exact ⟨.internalError, _, rfl, Or.inr (Or.inl ⟨by omega, rfl⟩)⟩

/-- The same while streams are being opened. -/
structure Pre (base : Nat) (b : Bytes) (u : U) : Prop where
  ne : b ≠ []
  control : u.control = some base
  ctl : ∃ t, u.st base = some t ∧ t.out = b ∧ t.fin = false ∧ t.urgency = 0
  enc : ∀ e, u.enc = some e → ∃ t, u.st e = some t ∧ t.out = [2] ∧ t.fin = false ∧ t.urgency = 0
  dec : ∀ e, u.dec = some e → ∃ t, u.st e = some t ∧ t.out = [3] ∧ t.fin = false ∧ t.urgency = 0
  other : ∀ id t, u.st id = some t → some id ≠ u.control → some id ≠ u.enc → some id ≠ u.dec → t.out = []
  exact : ∀ id, (∃ t, u.st id = some t ∧ t.out ≠ []) ↔ base ≤ id ∧ id < u.next ∧ id % 4 = base % 4
  above : ∀ id, u.next ≤ id → Blank u id
  mod : u.next % 4 = base % 4
  le : base ≤ u.next

theorem Pre.below {base : Nat} {b : Bytes} {u : U} (h : Pre base b u) {id : Nat} {t : Tx} (ht : u.st id = some t)
    (hn : t.out ≠ []) : id < u.next := ((h.exact id).mp ⟨t, ht, hn⟩).2.1

/-- An attempt that failed changes nothing. -/
theorem Pre.failed {base : Nat} {b : Bytes} {u : U} (h : Pre base b u) {st' : Nat → Option Tx}
    (h1 : ∀ id, id ≠ u.next → st' id = u.st id) (h2 : Blank { u with st := st' } u.next) : Pre base b { u with st := st' } := by
  have keep : ∀ {id : Nat} {t : Tx}, u.st id = some t → t.out ≠ [] → st' id = some t := by
    intro id t ht hn
    rw [h1 id (by have := h.below ht hn; omega)]
    exact ht
  refine ⟨h.ne, h.control, ?_, ?_, ?_, ?_, ?_, ?_, h.mod, h.le⟩
  · obtain ⟨t, a, b', c⟩ := h.ctl
    exact ⟨t, keep a (by rw [b']; exact h.ne), b', c⟩
  · intro e he
    obtain ⟨t, a, b', c⟩ := h.enc e he
    exact ⟨t, keep a (by rw [b']; simp), b', c⟩
  · intro e he
    obtain ⟨t, a, b', c⟩ := h.dec e he
    exact ⟨t, keep a (by rw [b']; simp), b', c⟩
  · intro id t ht hc he hd
    by_cases hid : id = u.next
    · subst hid; exact (h2 t ht).1
    · exact h.other id t (by rw [← h1 id hid]; exact ht) hc he hd
  · intro id
    rw [← h.exact id]
    constructor
    · rintro ⟨t, ht, hn⟩
      by_cases hid : id = u.next
      · subst hid; exact absurd (h2 t ht).1 hn
      · exact ⟨t, by rw [← h1 id hid]; exact ht, hn⟩
    · rintro ⟨t, ht, hn⟩
      exact ⟨t, keep ht hn, hn⟩
  · intro id hid
    by_cases hx : id = u.next
    · subst hx; exact h2
    · intro t ht
      exact h.above id hid t (by rw [← h1 id hx]; exact ht)

/-- A stream opened. -/
theorem Pre.grown {base : Nat} {b : Bytes} {u : U} (h : Pre base b u) {t : Tx} {cap : Nat} (hn : t.out ≠ []) :
    let u' := { u with st := upd u.st u.next (some t), cap := cap, next := u.next + 4 }
    (∀ {id : Nat} {x : Tx}, u.st id = some x → x.out ≠ [] → u'.st id = some x) ∧
    (∀ id, (∃ t, u'.st id = some t ∧ t.out ≠ []) ↔ base ≤ id ∧ id < u'.next ∧ id % 4 = base % 4) ∧
    (∀ id, u'.next ≤ id → Blank u' id) := by
  have keep : ∀ {id : Nat} {x : Tx}, u.st id = some x → x.out ≠ [] → upd u.st u.next (some t) id = some x := by
    intro id x hx hxn
    rw [upd_ne _ _ (by have := h.below hx hxn; omega)]
    exact hx
  refine ⟨keep, ?_, ?_⟩
  · intro id
    have hm := h.mod
    have hle := h.le
    constructor
    · rintro ⟨x, hx, hxn⟩
      simp only at hx
      by_cases hid : id = u.next
      · subst hid; exact ⟨hle, by simp only; omega, hm⟩
      · rw [upd_ne _ _ hid] at hx
        obtain ⟨a, b, c⟩ := (h.exact id).mp ⟨x, hx, hxn⟩
        exact ⟨a, by simp only; omega, c⟩
    · rintro ⟨a, b, c⟩
      simp only at b
      by_cases hid : id = u.next
      · subst hid; exact ⟨t, upd_self _ _ _, hn⟩
      · obtain ⟨x, hx, hxn⟩ := (h.exact id).mpr ⟨a, by omega, c⟩
        exact ⟨x, keep hx hxn, hxn⟩
  · intro id hid x hx
    simp only at hid hx
    rw [upd_ne _ _ (by omega)] at hx
    exact h.above id (by omega) x hx

theorem one_byte {ty : Nat} {b : UInt8} (he : Io.enc ty = [b]) {u : U}
    (hp : 0 < min (min (Io.enc ty).length u.cap) u.first) :
    (Io.enc ty).take (min (min (Io.enc ty).length u.cap) u.first) = [b] := by
  rw [he] at hp ⊢
  simp only [List.length_singleton] at hp ⊢
  have : min (min 1 u.cap) u.first = 1 := by omega
  rw [this]
  rfl

theorem openEnc_pre {base : Nat} {b : Bytes} {u : U} (h : Pre base b u) (he : u.enc = none) (hd : u.dec = none) :
    Pre base b u.openEnc ∧ u.openEnc.dec = none ∧ u.openEnc.grease = u.grease ∧ u.openEnc.closed = u.closed ∧
    u.openEnc.isServer = u.isServer ∧ u.openEnc.goaway = u.goaway ∧
    ((u.openEnc.enc = none ∧ u.openEnc.next = u.next) ∨ (u.openEnc.enc = some u.next ∧ u.openEnc.next = u.next + 4)) := by
  unfold U.openEnc
  rcases openUni_spec (ty := 2) (by decide) (h.above u.next (Nat.le_refl _)) with ⟨_, hp, ho⟩ | ⟨e, st', ho, h1, h2, _⟩
  · rw [ho]
    rw [one_byte enc2 hp]
    simp only
    refine ⟨?_, hd, trivial, trivial, trivial, trivial, Or.inr ⟨trivial, trivial⟩⟩
    obtain ⟨keep, ex, ab⟩ := h.grown (t := { out := [2], fin := false, room := u.first - min (min (Io.enc 2).length u.cap) u.first, stopped := false, urgency := urg 2 })
      (cap := u.cap - min (min (Io.enc 2).length u.cap) u.first) (by simp)
    have hm := h.mod
    refine ⟨h.ne, h.control, ?_, ?_, ?_, ?_, ex, ab, by simp only; omega, by have := h.le; simp only; omega⟩
    · obtain ⟨t, a, b', c⟩ := h.ctl
      exact ⟨t, keep a (by rw [b']; exact h.ne), b', c⟩
    · intro e hee
      simp only [Option.some.injEq] at hee
      subst hee
      exact ⟨_, upd_self _ _ _, rfl, rfl, rfl⟩
    · intro e hee
      simp only at hee
      rw [hd] at hee; cases hee
    · intro id t ht hc hen hde
      simp only at ht hc hen hde
      have : id ≠ u.next := by simpa using hen
      rw [upd_ne _ _ this] at ht
      exact h.other id t ht hc (by rw [he]; simp) hde
  · rw [ho]
    exact ⟨h.failed h1 h2, hd, rfl, rfl, rfl, rfl, Or.inl ⟨he, rfl⟩⟩

theorem openDec_pre {base : Nat} {b : Bytes} {u : U} (h : Pre base b u) (hd : u.dec = none) :
    Pre base b u.openDec ∧ u.openDec.enc = u.enc ∧ u.openDec.grease = u.grease ∧ u.openDec.closed = u.closed ∧
    u.openDec.isServer = u.isServer ∧ u.openDec.goaway = u.goaway ∧
    ((u.openDec.dec = none ∧ u.openDec.next = u.next) ∨ (u.openDec.dec = some u.next ∧ u.openDec.next = u.next + 4)) := by
  unfold U.openDec
  rcases openUni_spec (ty := 3) (by decide) (h.above u.next (Nat.le_refl _)) with ⟨_, hp, ho⟩ | ⟨e, st', ho, h1, h2, _⟩
  · rw [ho]
    rw [one_byte enc3 hp]
    simp only
    refine ⟨?_, trivial, trivial, trivial, trivial, trivial, Or.inr ⟨trivial, trivial⟩⟩
    obtain ⟨keep, ex, ab⟩ := h.grown (t := { out := [3], fin := false, room := u.first - min (min (Io.enc 3).length u.cap) u.first, stopped := false, urgency := urg 3 })
      (cap := u.cap - min (min (Io.enc 3).length u.cap) u.first) (by simp)
    have hm := h.mod
    refine ⟨h.ne, h.control, ?_, ?_, ?_, ?_, ex, ab, by simp only; omega, by have := h.le; simp only; omega⟩
    · obtain ⟨t, a, b', c⟩ := h.ctl
      exact ⟨t, keep a (by rw [b']; exact h.ne), b', c⟩
    · intro e hee
      obtain ⟨t, a, b', c⟩ := h.enc e hee
      exact ⟨t, keep a (by rw [b']; simp), b', c⟩
    · intro e hee
      simp only [Option.some.injEq] at hee
      subst hee
      exact ⟨_, upd_self _ _ _, rfl, rfl, rfl⟩
    · intro id t ht hc hen hde
      simp only at ht hc hen hde
      have : id ≠ u.next := by simpa using hde
      rw [upd_ne _ _ this] at ht
      exact h.other id t ht hc hen (by rw [hd]; simp)
  · rw [ho]
    exact ⟨h.failed h1 h2, rfl, rfl, rfl, rfl, rfl, Or.inl ⟨hd, rfl⟩⟩

theorem Pre.good {base : Nat} {b gr : Bytes} {u : U} (h : Pre base b u)
    (ids : (u.enc = none ∧ (u.dec = none ∨ u.dec = some (base + 4))) ∨
      (u.enc = some (base + 4) ∧ (u.dec = none ∨ u.dec = some (base + 8)))) : Good base b gr u [] := by
  refine ⟨h.control, ?_, h.enc, h.dec, ids, ?_, h.exact⟩
  · obtain ⟨t, a, b', c⟩ := h.ctl
    exact ⟨t, [], a, by simpa using b', .nil, c⟩
  · intro id t ht hc he hd hn
    exact absurd (h.other id t ht hc he hd) hn

theorem draw_bound (g : Nat) : Send.draw g < 2 ^ 62 ∧ Send.draw g ≠ 0 ∧ Send.draw g ≠ 2 ∧ Send.draw g ≠ 3 := by
  unfold Send.draw greaseValue
  have : g % greaseBound < greaseBound := Nat.mod_lt _ (by decide)
  unfold greaseBound at *
  omega

theorem openGrease_good {base : Nat} {b : Bytes} {u : U} (g : Nat) (h : Pre base b u)
    (ids : (u.enc = none ∧ (u.dec = none ∨ u.dec = some (base + 4))) ∨
      (u.enc = some (base + 4) ∧ (u.dec = none ∨ u.dec = some (base + 8)))) :
    Good base b (Io.enc (Send.draw g) ++ Send.greaseText) (u.openGrease g) [] ∧ (u.openGrease g).closed = u.closed ∧
    (u.openGrease g).isServer = u.isServer ∧ (u.openGrease g).goaway = u.goaway := by
  obtain ⟨hb, hb0, hb2, hb3⟩ := draw_bound g
  unfold U.openGrease
  rcases openUni_spec (ty := Send.draw g) hb (h.above u.next (Nat.le_refl _)) with ⟨_, hp, ho⟩ | ⟨e, st', ho, h1, h2, _⟩
  · rw [ho]
    simp only
    have hurg : urg (Send.draw g) = 255 := by unfold urg; rw [if_neg (by omega)]
    rw [hurg]
    generalize hN : min (min (Io.enc (Send.draw g)).length u.cap) u.first = N at hp
    have hNle : N ≤ (Io.enc (Send.draw g)).length := by omega
    -- the stream in the end
    have fin : ∀ (t : Tx) (cap : Nat), t.out ≠ [] → t.urgency = 255 → t.out <+: Io.enc (Send.draw g) ++ Send.greaseText →
        (t.fin = true ↔ t.out = Io.enc (Send.draw g) ++ Send.greaseText) →
        Good base b (Io.enc (Send.draw g) ++ Send.greaseText)
          { u with st := upd u.st u.next (some t), cap := cap, next := u.next + 4 } [] := by
      intro t cap t1 t2 t3 t4
      obtain ⟨keep, ex, ab⟩ := h.grown (t := t) (cap := cap) t1
      refine ⟨h.control, ?_, ?_, ?_, ids, ?_, ex⟩
      · obtain ⟨x, a, b', c⟩ := h.ctl
        exact ⟨x, [], keep a (by rw [b']; exact h.ne), by simpa using b', .nil, c⟩
      · intro e hee
        obtain ⟨x, a, b', c⟩ := h.enc e hee
        exact ⟨x, keep a (by rw [b']; simp), b', c⟩
      · intro e hee
        obtain ⟨x, a, b', c⟩ := h.dec e hee
        exact ⟨x, keep a (by rw [b']; simp), b', c⟩
      · intro id x hx hc he hd hn
        simp only at hx hc he hd
        by_cases hid : id = u.next
        · subst hid
          rw [upd_self] at hx
          simp only [Option.some.injEq] at hx
          subst hx
          exact ⟨rfl, t2, t3, t4⟩
        · rw [upd_ne _ _ hid] at hx
          exact absurd (h.other id x hx hc he hd) hn
    have hne0 : (Io.enc (Send.draw g)).take N ≠ [] := by
      intro hx
      have := congrArg List.length hx
      simp at this
      rcases this with hx | hx
      · omega
      · exact enc_ne hb hx
    have htl : Send.greaseText.length = 18 := by decide
    rcases send_some (fin := true) (bs := Send.greaseText) (id := u.next) (u := { u with
        st := upd u.st u.next (some { out := (Io.enc (Send.draw g)).take N, fin := false, room := u.first - N, stopped := false, urgency := 255 })
        cap := u.cap - N
        next := u.next + 4 }) (upd_self _ _ _) rfl rfl (by decide) with ⟨hz, hsend⟩ | ⟨hpp, hsend⟩
    · rw [hsend]
      simp only [U.set, upd_upd]
      refine ⟨fin _ _ hne0 rfl ?_ ?_, by trivial, by trivial, by trivial⟩
      · exact (List.take_prefix _ _).trans (List.prefix_append _ _)
      · simp only [Bool.false_eq_true, false_iff]
        intro hx
        have := congrArg List.length hx
        simp only [List.length_take, List.length_append] at this
        omega
    · rw [hsend]
      simp only [upd_upd]
      simp only at hpp
      have hNfull : N = (Io.enc (Send.draw g)).length := by omega
      refine ⟨fin _ _ ?_ rfl ?_ ?_, by trivial, by trivial, by trivial⟩
      · simp [hne0]
      · simp only
        rw [hNfull, List.take_length]
        exact (List.prefix_append_right_inj _).mpr (List.take_prefix _ _)
      · simp only [Bool.true_and, decide_eq_true_eq]
        rw [hNfull, List.take_length, List.append_right_inj]
        constructor
        · intro hx; rw [hx, List.take_length]
        · intro hx
          have := congrArg List.length hx
          simp only [List.length_take] at this
          omega
  · rw [ho]
    exact ⟨(h.failed h1 h2).good ids, rfl, rfl, rfl⟩

/-- `with_transport`. -/
theorem transport_spec {u : U} (hf : Fresh u) (c : Config) (dgram : Bool) (g : Nat × Nat × Nat) :
    (∃ s u', settings u c dgram g = .ok s ∧ u.withTransport c dgram g = (.ok (), u') ∧
      Good u.next (opening u s) (Io.enc (Send.draw g.2.2) ++ Send.greaseText) u' [] ∧ u'.closed = none ∧
      u'.isServer = u.isServer ∧ u'.goaway = none) ∨
    (∃ e u', u.withTransport c dgram g = (.error e, u') ∧
      ((u.isServer = false ∧ u.ready = false ∧ e = .internalError ∧ u' = u) ∨
       ((e = .panic ∨ u'.closed = some e.toWire) ∧
        ((u.lim = 0 ∧ e = .transport) ∨ (min u.first u.cap = 0 ∧ e = .internalError) ∨
          (min u.first u.cap = 1 ∧ e = .done) ∨ settings u c dgram g = .error e)))) := by
  unfold U.withTransport
  by_cases hr : (!u.isServer && !u.ready) = true
  · right
    rw [if_pos hr]
    simp at hr
    exact ⟨_, _, rfl, Or.inl ⟨hr.1, hr.2, rfl, rfl⟩⟩
  · rw [if_neg hr]
    rcases settings_spec hf (c := c) (dgram := dgram) (g := (g.1, g.2.1)) with ⟨s, st, room, cap, hs, hss, h1, h2⟩ | ⟨e, u', hss, hwhy⟩
    · left
      rw [hss]
      simp only
      have hpre : Pre u.next (opening u s) { u with st := st, cap := cap, next := u.next + 4, control := some u.next } := by
        refine ⟨by simp [opening], rfl, ⟨_, h1, rfl, rfl, rfl⟩, ?_, ?_, ?_, ?_, ?_, by simp only; omega, by simp only; omega⟩
        · intro e he; simp only at he; rw [hf.enc] at he; cases he
        · intro e he; simp only at he; rw [hf.dec] at he; cases he
        · intro id t ht hc _ _
          simp only at ht hc
          rw [h2 id (by simpa using hc)] at ht
          cases ht
        · intro id
          simp only
          constructor
          · rintro ⟨t, ht, _⟩
            by_cases hid : id = u.next
            · subst hid; exact ⟨Nat.le_refl _, by omega, rfl⟩
            · rw [h2 id hid] at ht; cases ht
          · rintro ⟨a, b, c⟩
            have : id = u.next := by omega
            subst this
            exact ⟨_, h1, by simp [opening]⟩
        · intro id hid t ht
          simp only at hid ht
          rw [h2 id (by omega)] at ht
          cases ht
      obtain ⟨e1, e2, e3, e4, e4', e4'', e5⟩ := openEnc_pre hpre hf.enc hf.dec
      obtain ⟨d1, d2, d3, d4, d4', d4'', d5⟩ := openDec_pre e1 e2
      generalize hu2 : (U.openEnc { u with st := st, cap := cap, next := u.next + 4, control := some u.next }) = u2 at *
      have ids : (u2.openDec.enc = none ∧ (u2.openDec.dec = none ∨ u2.openDec.dec = some (u.next + 4))) ∨
          (u2.openDec.enc = some (u.next + 4) ∧ (u2.openDec.dec = none ∨ u2.openDec.dec = some (u.next + 8))) := by
        rw [d2]
        rcases e5 with ⟨a, b⟩ | ⟨a, b⟩
        · left
          refine ⟨a, ?_⟩
          rcases d5 with ⟨c, _⟩ | ⟨c, _⟩
          · exact Or.inl c
          · exact Or.inr (by rw [c, b])
        · right
          refine ⟨a, ?_⟩
          rcases d5 with ⟨c, _⟩ | ⟨c, _⟩
          · exact Or.inl c
          · exact Or.inr (by rw [c, b])
      refine ⟨s, _, hs, rfl, ?_⟩
      split
      · obtain ⟨k1, k2, k3, k4⟩ := openGrease_good g.2.2 d1 ids
        exact ⟨k1, by rw [k2, d4, e4]; exact hf.closed, by rw [k3, d4', e4'], by rw [k4, d4'', e4'']; exact hf.goaway⟩
      · exact ⟨d1.good ids, by rw [d4, e4]; exact hf.closed, by rw [d4', e4'], by rw [d4'', e4'']; exact hf.goaway⟩
    · right
      rw [hss]
      by_cases hp : e = .panic
      · subst hp
        exact ⟨.panic, _, rfl, Or.inr ⟨Or.inl rfl, hwhy⟩⟩
      · refine ⟨e, { u' with closed := some e.toWire }, ?_, Or.inr ⟨Or.inr rfl, hwhy⟩⟩
        cases e <;> first | rfl | exact absurd rfl hp

/-! ### What follows on the control stream -/

/-- Sending that has room for everything. -/
theorem send_whole {u : U} {c : Nat} {t : Tx} {bs : Bytes} (ht : u.st c = some t) (hs : t.stopped = false)
    (hf : t.fin = false) (hr : bs.length ≤ min u.cap t.room) :
    u.send c bs false = (.ok bs.length,
      { u with
        st := upd u.st c (some { t with out := t.out ++ bs, room := t.room - bs.length })
        cap := u.cap - bs.length }) := by
  by_cases hb : bs = []
  · subst hb
    unfold U.send U.make
    rw [ht]
    simp [hs, hf, U.set]
  · have hl : 0 < bs.length := List.length_pos_iff.mpr hb
    have hm : min (min bs.length u.cap) t.room = bs.length := by omega
    rcases send_some (fin := false) ht hs hf hb with ⟨hz, _⟩ | ⟨_, hsend⟩
    · omega
    · rw [hsend, hm]
      simp [hf]

/-- A change of the control stream, or of capacities. -/
theorem Good.more {base : Nat} {b gr : Bytes} {u : U} {l l' : List Call} (h : Good base b gr u l) (hb : b ≠ []) {st' : Nat → Option Tx}
    {cap lim : Nat} {ga : Option Nat}
    (hc : ∃ t w, st' base = some t ∧ t.out = b ++ w ∧ Carried l' w ∧ t.fin = false ∧ t.urgency = 0)
    (ho : ∀ id, id ≠ base → (st' id).map (fun t => (t.out, t.fin, t.urgency)) = (u.st id).map (fun t => (t.out, t.fin, t.urgency))) :
    Good base b gr { u with st := st', cap := cap, lim := lim, goaway := ga } l' := by
  have hex : ∀ id e bs, id ≠ base → (∃ t, u.st id = some t ∧ t.out = bs ∧ t.fin = e ∧ t.urgency = 0) →
      ∃ t, st' id = some t ∧ t.out = bs ∧ t.fin = e ∧ t.urgency = 0 := by
    rintro id e bs hid ⟨t, h1, h2, h3, h4⟩
    have := ho id hid
    rw [h1] at this
    simp only [Option.map_some, Option.map_eq_some_iff, Prod.mk.injEq] at this
    obtain ⟨x, a1, a2, a3, a4⟩ := this
    exact ⟨x, a1, by rw [a2, h2], by rw [a3, h3], by rw [a4, h4]⟩
  have hback : ∀ id t, id ≠ base → st' id = some t → ∃ x, u.st id = some x ∧ x.out = t.out ∧ x.fin = t.fin ∧ x.urgency = t.urgency := by
    intro id t hid ht
    have := (ho id hid).symm
    rw [ht] at this
    simp only [Option.map_some, Option.map_eq_some_iff, Prod.mk.injEq] at this
    obtain ⟨x, a1, a2, a3, a4⟩ := this
    exact ⟨x, a1, a2, a3, a4⟩
  have hne : ∀ e, u.enc = some e ∨ u.dec = some e → e ≠ base := by
    intro e he
    clear hex hback ho hc
    rcases h.ids with ⟨a, b' | b'⟩ | ⟨a, b' | b'⟩ <;> rcases he with he | he <;>
      simp only [a, b', Option.some.injEq, reduceCtorEq] at he <;> omega
  refine ⟨h.control, hc, ?_, ?_, h.ids, ?_, ?_⟩
  · intro e he
    exact hex e false [2] (hne e (Or.inl he)) (h.enc e he)
  · intro e he
    exact hex e false [3] (hne e (Or.inr he)) (h.dec e he)
  · intro id t ht h1 h2 h3 h4
    simp only at ht h1 h2 h3
    have hid : id ≠ base := by rw [h.control] at h1; simpa using h1
    obtain ⟨x, a1, a2, a3, a4⟩ := hback id t hid ht
    have := h.other id x a1 h1 h2 h3 (by rw [a2]; exact h4)
    rw [a2, a3, a4] at this
    exact this
  · intro id
    rw [← h.exact id]
    by_cases hid : id = base
    · subst hid
      obtain ⟨t, w, c1, c2, _⟩ := hc
      obtain ⟨t', w', d1, d2, _⟩ := h.ctl
      exact ⟨fun _ => ⟨t', d1, by rw [d2]; simp [hb]⟩, fun _ => ⟨t, c1, by rw [c2]; simp [hb]⟩⟩
    · constructor
      · rintro ⟨t, ht, hn⟩
        obtain ⟨x, a1, a2, _⟩ := hback id t hid ht
        exact ⟨x, a1, by rw [a2]; exact hn⟩
      · rintro ⟨t, ht, hn⟩
        have := ho id hid
        rw [ht] at this
        simp only [Option.map_some, Option.map_eq_some_iff, Prod.mk.injEq] at this
        obtain ⟨x, a1, a2, _⟩ := this
        exact ⟨x, a1, by rw [a2]; exact hn⟩

/-- A whole frame on the control stream. -/
theorem Good.frame {base : Nat} {b gr : Bytes} {u : U} {l : List Call} (h : Good base b gr u l) (hb : b ≠ [])
    {t : Tx} {c : Call} {ty : Nat} {p f : Bytes} {room cap : Nat} {ga : Option Nat} (ht : u.st base = some t) (hs : Says c ty p) (hw : Wire ty p f) :
    Good base b gr { u with
      st := upd u.st base (some { t with out := t.out ++ f, room := room }), cap := cap, lim := u.lim, goaway := ga } (l ++ [c]) := by
  apply h.more hb
  · obtain ⟨t', w, c1, c2, c3, c4, c5⟩ := h.ctl
    rw [ht] at c1
    simp only [Option.some.injEq] at c1
    subst c1
    exact ⟨_, w ++ f, upd_self _ _ _, by simp only; rw [c2, List.append_assoc], .snoc c ty p f c3 hs hw, c4, c5⟩
  · intro id hid
    rw [upd_ne _ _ hid]

theorem capacity_ok {u : U} {c n : Nat} (h : u.capacity c = .ok n) :
    ∃ t, u.st c = some t ∧ t.stopped = false ∧ n = min u.cap t.room := by
  unfold U.capacity at h
  split at h
  · cases h
  next t ht =>
    split at h
    · cases h
    next hs =>
      have := Except.ok.inj h
      exact ⟨t, ht, by simpa using hs, this.symm⟩

theorem goaway_step {base : Nat} {b gr : Bytes} {u : U} {l : List Call} (h : Good base b gr u l) (hb : b ≠ []) (id : Nat) :
    (∃ e, u.sendGoaway id = (.error e, u)) ∨
    (∃ u', u.sendGoaway id = (.ok (), u') ∧ u'.isServer = u.isServer ∧ u'.closed = u.closed ∧
      Good base b gr u' (l ++ [.goaway (if u.isServer then id else 0)]) ∧
      (∀ g, u.goaway = some g → (if u.isServer then id else 0) ≤ g) ∧ u'.goaway = some (if u.isServer then id else 0)) := by
  unfold U.sendGoaway
  simp only
  generalize (if u.isServer = true then id else 0) = id'
  split
  · exact Or.inl ⟨_, rfl⟩
  split
  · exact Or.inl ⟨_, rfl⟩
  next hg =>
    rw [h.control]
    simp only
    rcases hto : toBytes (.goAway id') ⟨List.replicate 10 42, 0⟩ with ⟨r, cur⟩
    cases r with
    | error e => exact Or.inl ⟨e, rfl⟩
    | ok _ =>
      simp only
      cases hcap : u.capacity base with
      | error e => exact Or.inl ⟨e, rfl⟩
      | ok n =>
        simp only
        split
        · exact Or.inl ⟨_, rfl⟩
        next hlt =>
          right
          obtain ⟨t, ht, hs, hn⟩ := capacity_ok hcap
          obtain ⟨t', w, c1, c2, c3, c4, c5⟩ := h.ctl
          rw [ht] at c1
          simp only [Option.some.injEq] at c1
          subst c1
          have hwire := C115.frame hto
          have hid : id' < 2 ^ 62 := by
            by_cases hx : id' < 2 ^ 62
            · exact hx
            · exfalso
              have h : putId 0x07 id' ⟨List.replicate 10 42, 0⟩ = (.ok (), cur) := hto
              unfold putId at h
              rw [Io.bind_run] at h
              have hv : vlen id' = Io.fail .panic := by
                unfold vlen varintLen maxVarInt
                rw [if_neg (by omega), if_neg (by omega), if_neg (by omega), if_neg (by omega)]
              rw [hv] at h
              split at h
              · rw [Io.bind_run] at h
                cases h
              · cases h
          have hlen : (cur.buf.take cur.off).length ≤ min u.cap t.room := by
            simp only [List.length_take]; omega
          rw [send_whole ht hs c4 hlen]
          simp only [bnd]
          refine ⟨_, rfl, rfl, rfl, ?_, ?_, rfl⟩
          · exact h.frame hb ht (.goaway id' _ (enc_isVarint hid)) hwire
          · intro g hgo
            rw [hgo] at hg
            simp at hg
            exact hg

theorem digit (u : Nat) : (UInt8.ofNat (48 + min u 7)).toNat = 0x30 + min u 7 := by
  rw [UInt8.toNat_ofNat']
  omega

theorem priority_step {base : Nat} {b gr : Bytes} {u : U} {l : List Call} (h : Good base b gr u l) (hb : b ≠ [])
    (id urgency : Nat) (inc : Bool) :
    (∃ e, u.sendPriority id urgency inc = (.error e, u)) ∨
    (∃ u', u.sendPriority id urgency inc = (.ok (), u') ∧ u'.isServer = u.isServer ∧ u'.closed = u.closed ∧ u'.goaway = u.goaway ∧
      u.isServer = false ∧ id % 4 = 0 ∧ Good base b gr u' (l ++ [.priority id urgency inc])) := by
  unfold U.sendPriority
  split
  · exact Or.inl ⟨_, rfl⟩
  next hsrv =>
  split
  · exact Or.inl ⟨_, rfl⟩
  next hmod =>
  rw [h.control]
  simp only
  split
  · exact Or.inl ⟨_, rfl⟩
  next hid =>
    have hid' : id < 2 ^ 62 := by omega
    cases hcap : u.capacity base with
    | error e => exact Or.inl ⟨e, rfl⟩
    | ok n =>
      simp only
      split
      · exact Or.inl ⟨_, rfl⟩
      next hlt =>
        right
        obtain ⟨t, ht, hs, hn⟩ := capacity_ok hcap
        obtain ⟨t', w, c1, c2, c3, c4, c5⟩ := h.ctl
        rw [ht] at c1
        simp only [Option.some.injEq] at c1
        subst c1
        have hel : (Io.enc id).length ≤ 8 := by
          rcases enc_isVarint hid' with h | h | h | h <;> omega
        have hvl : (fieldValue urgency inc).length ≤ 5 := by
          unfold fieldValue; cases inc <;> simp
        rw [send_whole ht hs c4 (by simp only [List.length_append]; omega)]
        simp only [bnd]
        rw [send_whole (t := { t with
            out := t.out ++ (Io.enc tPrioRequest ++ Io.enc ((Io.enc id).length + (fieldValue urgency inc).length) ++ Io.enc id)
            room := t.room - (Io.enc tPrioRequest ++ Io.enc ((Io.enc id).length + (fieldValue urgency inc).length) ++ Io.enc id).length })
          (upd_self _ _ _) hs c4 (by simp only [List.length_append]; omega)]
        refine ⟨_, rfl, rfl, rfl, rfl, by simpa using hsrv, by omega, ?_⟩
        have hpl : (Io.enc id ++ fieldValue urgency inc).length = (Io.enc id).length + (fieldValue urgency inc).length := by simp
        have hwire : Wire 0xf0700 (Io.enc id ++ fieldValue urgency inc)
            (Io.enc tPrioRequest ++ Io.enc ((Io.enc id).length + (fieldValue urgency inc).length) ++ Io.enc id ++ fieldValue urgency inc) := by
          have := Send.wire_enc (ty := 0xf0700) (p := Io.enc id ++ fieldValue urgency inc) (by decide) (by rw [hpl]; omega)
          rw [hpl] at this
          simpa using this
        have hsays : Says (.priority id urgency inc) 0xf0700 (Io.enc id ++ fieldValue urgency inc) := by
          cases inc with
          | false => exact .urgency id urgency _ _ (enc_isVarint hid') (digit urgency)
          | true => exact .incremental id urgency _ _ (enc_isVarint hid') (digit urgency)
        have := h.frame hb ht (room := t.room - (Io.enc tPrioRequest ++ Io.enc ((Io.enc id).length + (fieldValue urgency inc).length) ++ Io.enc id).length - (fieldValue urgency inc).length)
          (cap := u.cap - (Io.enc tPrioRequest ++ Io.enc ((Io.enc id).length + (fieldValue urgency inc).length) ++ Io.enc id).length - (fieldValue urgency inc).length)
          (ga := u.goaway) hsays hwire
        simp only [upd_upd, List.append_assoc] at this ⊢
        exact this

theorem step_good {base : Nat} {b gr : Bytes} {x : X} (h : Good base b gr x.u x.log) (hb : b ≠ []) (a : Uni.Act) :
    Good base b gr (x.step a).u (x.step a).log ∧ (x.step a).u.closed = x.u.closed := by
  cases a with
  | goaway id =>
    rcases goaway_step h hb id with ⟨e, he⟩ | ⟨u', he, h1, h2, h3, _⟩
    · simp only [X.step, he]; exact ⟨h, trivial⟩
    · simp only [X.step, he, h1]; exact ⟨h3, h2⟩
  | priority id urgency inc =>
    rcases priority_step h hb id urgency inc with ⟨e, he⟩ | ⟨u', he, h1, h2, _, _, _, h3⟩
    · simp only [X.step, he]; exact ⟨h, trivial⟩
    · simp only [X.step, he]; exact ⟨h3, h2⟩
  | capacity n =>
    simp only [X.step]
    exact ⟨h.more hb (lim := x.u.lim) (ga := x.u.goaway) h.ctl (fun _ _ => rfl), trivial⟩
  | streams n =>
    simp only [X.step]
    exact ⟨h.more hb (cap := x.u.cap) (ga := x.u.goaway) h.ctl (fun _ _ => rfl), trivial⟩
  | room id n =>
    simp only [X.step]
    split
    · exact ⟨h, rfl⟩
    next t ht =>
      refine ⟨h.more hb (lim := x.u.lim) (cap := x.u.cap) (ga := x.u.goaway) (st' := upd x.u.st id (some { t with room := t.room + n })) ?_ ?_, rfl⟩
      · obtain ⟨t', w, c1, c2⟩ := h.ctl
        by_cases hid : base = id
        · subst hid
          rw [ht] at c1
          simp only [Option.some.injEq] at c1
          subst c1
          exact ⟨_, w, upd_self _ _ _, c2⟩
        · exact ⟨t', w, by rw [upd_ne _ _ hid]; exact c1, c2⟩
      · intro i hi
        by_cases hid : i = id
        · subst hid; rw [upd_self, ht]; rfl
        · rw [upd_ne _ _ hid]
  | stopped id =>
    simp only [X.step]
    split
    · exact ⟨h, rfl⟩
    next t ht =>
      refine ⟨h.more hb (lim := x.u.lim) (cap := x.u.cap) (ga := x.u.goaway) (st' := upd x.u.st id (some { t with stopped := true })) ?_ ?_, rfl⟩
      · obtain ⟨t', w, c1, c2⟩ := h.ctl
        by_cases hid : base = id
        · subst hid
          rw [ht] at c1
          simp only [Option.some.injEq] at c1
          subst c1
          exact ⟨_, w, upd_self _ _ _, c2⟩
        · exact ⟨t', w, by rw [upd_ne _ _ hid]; exact c1, c2⟩
      · intro i hi
        by_cases hid : i = id
        · subst hid; rw [upd_self, ht]; rfl
        · rw [upd_ne _ _ hid]

theorem run_good {base : Nat} {b gr : Bytes} (hb : b ≠ []) (l : List Uni.Act) : ∀ {x : X}, Good base b gr x.u x.log →
    Good base b gr (x.run l).u (x.run l).log ∧ (x.run l).u.closed = x.u.closed := by
  induction l with
  | nil => intro x h; exact ⟨h, rfl⟩
  | cons a l ih =>
    intro x h
    obtain ⟨h1, h2⟩ := step_good h hb a
    obtain ⟨h3, h4⟩ := ih h1
    exact ⟨h3, h4.trans h2⟩

theorem after_good {u : U} (hf : Fresh u) {c : Config} {dgram : Bool} {g : Nat × Nat × Nat}
    (hok : (u.withTransport c dgram g).1 = .ok ()) (l : List Uni.Act) :
    ∃ s, settings u c dgram g = .ok s ∧
      Good u.next (opening u s) (Io.enc (Send.draw g.2.2) ++ Send.greaseText) (after u c dgram g l) (accepted u c dgram g l) ∧
      (after u c dgram g l).closed = none := by
  rcases transport_spec hf c dgram g with ⟨s, u', hs, ht, hg, hc, _⟩ | ⟨e, u', ht, _⟩
  · refine ⟨s, hs, ?_⟩
    unfold after accepted
    rw [ht]
    obtain ⟨h1, h2⟩ := run_good (by simp [opening]) l (x := { u := u' }) hg
    exact ⟨h1, h2.trans hc⟩
  · rw [ht] at hok
    cases hok

/-! ### Theorems -/

/-- **C178 control**: what stands on the control stream, the first of the unidirectional streams:
its type, as much of the SETTINGS frame as there was room for when it was opened, and one whole frame
for each call that was accepted, in order. -/
theorem control {u : U} (hf : Fresh u) {c : Config} {dgram : Bool} {g : Nat × Nat × Nat}
    (hok : (u.withTransport c dgram g).1 = .ok ()) (l : List Uni.Act) :
    ∃ s t w, settings u c dgram g = .ok s ∧ (after u c dgram g l).control = some (if u.isServer then 3 else 2) ∧
      (after u c dgram g l).st (if u.isServer then 3 else 2) = some t ∧
      t.out = [0x00] ++ s.take (min u.first u.cap - 1) ++ w ∧ Carried (accepted u c dgram g l) w ∧ t.fin = false := by
  obtain ⟨s, hs, hg, _⟩ := after_good hf hok l
  obtain ⟨t, w, h1, h2, h3, h4, _⟩ := hg.ctl
  have hc := hg.control
  rw [hf.next] at h1 hc
  exact ⟨s, t, w, hs, hc, h1, h2, h3, h4⟩

/-- **C178 control_partial**: with room for it when the stream is opened, the SETTINGS frame is whole and only whole
frames follow. *Missing*: this without the condition (`control_false`). -/
theorem control_partial {u : U} (hf : Fresh u) {c : Config} {dgram : Bool} {g : Nat × Nat × Nat}
    (hok : (u.withTransport c dgram g).1 = .ok ()) (hroom : ∀ s, settings u c dgram g = .ok s → s.length + 1 ≤ min u.first u.cap)
    (l : List Uni.Act) :
    ∃ s t w, settings u c dgram g = .ok s ∧ (after u c dgram g l).st (if u.isServer then 3 else 2) = some t ∧
      t.out = [0x00] ++ s ++ w ∧ Carried (accepted u c dgram g l) w := by
  obtain ⟨s, t, w, h1, h2, h3, h4, h5, h6⟩ := control hf hok l
  refine ⟨s, t, w, h1, h3, ?_, h5⟩
  rw [h4, List.take_of_length_le (by have := hroom s h1; omega)]

/-- **C178 qpack**: the QPACK streams carry their type and nothing else, are never ended, and come
next after the control stream; a stream that could not be opened does not use up a number. -/
theorem qpack {u : U} (hf : Fresh u) {c : Config} {dgram : Bool} {g : Nat × Nat × Nat}
    (hok : (u.withTransport c dgram g).1 = .ok ()) (l : List Uni.Act) :
    (∀ e, (after u c dgram g l).enc = some e → e = (if u.isServer then 3 else 2) + 4 ∧
      ∃ t, (after u c dgram g l).st e = some t ∧ t.out = [0x02] ∧ t.fin = false) ∧
    (∀ e, (after u c dgram g l).dec = some e →
      e = (if u.isServer then 3 else 2) + (if (after u c dgram g l).enc = none then 4 else 8) ∧
      ∃ t, (after u c dgram g l).st e = some t ∧ t.out = [0x03] ∧ t.fin = false) := by
  obtain ⟨s, hs, hg, _⟩ := after_good hf hok l
  have hi := hg.ids
  rw [hf.next] at hi
  constructor
  · intro e he
    obtain ⟨t, a, b, c, _⟩ := hg.enc e he
    refine ⟨?_, t, a, b, c⟩
    rw [he] at hi
    rcases hi with ⟨h, _⟩ | ⟨h, _⟩
    · cases h
    · exact Option.some.inj h
  · intro e he
    obtain ⟨t, a, b, c, _⟩ := hg.dec e he
    refine ⟨?_, t, a, b, c⟩
    rw [he] at hi
    rcases hi with ⟨h, h' | h'⟩ | ⟨h, h' | h'⟩
    · cases h'
    · rw [h]; exact Option.some.inj h'
    · cases h'
    · rw [h]; exact Option.some.inj h'

/-- **C178 streams**: the streams on which something was sent have consecutive numbers, from the
first; those that are not control or QPACK streams: at most one, the last, with the lowest
priority, whose bytes are the beginning of a reserved type and the text for it, ended when all of it
was sent. -/
theorem streams {u : U} (hf : Fresh u) {c : Config} {dgram : Bool} {g : Nat × Nat × Nat}
    (hok : (u.withTransport c dgram g).1 = .ok ()) (l : List Uni.Act) :
    ∃ next, (∀ id, (∃ t, (after u c dgram g l).st id = some t ∧ t.out ≠ []) ↔
        id < next ∧ id % 4 = (if u.isServer then 3 else 2)) ∧
      (∀ id t, (after u c dgram g l).st id = some t → t.out ≠ [] → some id ≠ (after u c dgram g l).control →
        some id ≠ (after u c dgram g l).enc → some id ≠ (after u c dgram g l).dec →
        id + 4 = next ∧ t.urgency = 255 ∧
        ∃ n ty, IsVarint (31 * n + 33) ty ∧ t.out <+: ty ++ Send.greaseText ∧ (t.fin = true ↔ t.out = ty ++ Send.greaseText)) := by
  obtain ⟨s, hs, hg, _⟩ := after_good hf hok l
  refine ⟨(after u c dgram g l).next, ?_, ?_⟩
  · intro id
    rw [hg.exact id, hf.next]
    split <;> omega
  · intro id t ht hn h1 h2 h3
    obtain ⟨a, b, c, d⟩ := hg.other id t ht h1 h2 h3 hn
    refine ⟨a, b, g.2.2 % greaseBound, Io.enc (Send.draw g.2.2), ?_, c, d⟩
    exact enc_isVarint (draw_bound g.2.2).1

/-- **C178 urgent**: control and QPACK streams have the highest priority. -/
theorem urgent {u : U} (hf : Fresh u) {c : Config} {dgram : Bool} {g : Nat × Nat × Nat}
    (hok : (u.withTransport c dgram g).1 = .ok ()) (l : List Uni.Act) (id : Nat) (t : Tx)
    (hid : some id = (after u c dgram g l).control ∨ some id = (after u c dgram g l).enc ∨ some id = (after u c dgram g l).dec)
    (ht : (after u c dgram g l).st id = some t) : t.urgency = 0 := by
  obtain ⟨s, hs, hg, _⟩ := after_good hf hok l
  rcases hid with h | h | h
  · rw [hg.control] at h
    obtain ⟨x, w, h1, _, _, _, h2⟩ := hg.ctl
    rw [Option.some.inj h, h1] at ht
    rw [← Option.some.inj ht]; exact h2
  · obtain ⟨x, h1, _, _, h2⟩ := hg.enc id h.symm
    rw [h1] at ht
    rw [← Option.some.inj ht]; exact h2
  · obtain ⟨x, h1, _, _, h2⟩ := hg.dec id h.symm
    rw [h1] at ht
    rw [← Option.some.inj ht]; exact h2

/-- **C178 refused**: if `with_transport` fails, it is for one of these reasons, and the connection is
closed with the code of the error; but a client that is not ready is left as it is. (`panic`: C99.) -/
theorem refused {u : U} (hf : Fresh u) {c : Config} {dgram : Bool} {g : Nat × Nat × Nat} {e : Err}
    (he : (u.withTransport c dgram g).1 = .error e) :
    (u.isServer = false ∧ u.ready = false ∧ e = .internalError ∧ (u.withTransport c dgram g).2 = u) ∨
    ((e = .panic ∨ (u.withTransport c dgram g).2.closed = some e.toWire) ∧
      ((u.lim = 0 ∧ e = .transport) ∨ (min u.first u.cap = 0 ∧ e = .internalError) ∨
        (min u.first u.cap = 1 ∧ e = .done) ∨ settings u c dgram g = .error e)) := by
  rcases transport_spec hf c dgram g with ⟨s, u', hs, ht, _⟩ | ⟨e', u', ht, h⟩
  · rw [ht] at he; cases he
  · rw [ht] at he ⊢
    have : e' = e := Except.error.inj he
    subst this
    exact h

/-- **C178 open**: otherwise the connection is not closed. -/
theorem opened {u : U} (hf : Fresh u) {c : Config} {dgram : Bool} {g : Nat × Nat × Nat}
    (hok : (u.withTransport c dgram g).1 = .ok ()) (l : List Uni.Act) : (after u c dgram g l).closed = none := by
  obtain ⟨s, hs, hg, h⟩ := after_good hf hok l
  exact h

/-- **C178 calls**: a call of `send_goaway` or `send_priority_update_for_request` that fails changes
nothing; a PRIORITY_UPDATE is only sent by a client, for a stream of its requests. -/
theorem calls {u : U} (hf : Fresh u) {c : Config} {dgram : Bool} {g : Nat × Nat × Nat}
    (hok : (u.withTransport c dgram g).1 = .ok ()) (l : List Uni.Act) (id urgency : Nat) (inc : Bool) :
    (∀ e, ((after u c dgram g l).sendGoaway id).1 = .error e → ((after u c dgram g l).sendGoaway id).2 = after u c dgram g l) ∧
    (∀ e, ((after u c dgram g l).sendPriority id urgency inc).1 = .error e →
      ((after u c dgram g l).sendPriority id urgency inc).2 = after u c dgram g l) ∧
    (((after u c dgram g l).sendPriority id urgency inc).1 = .ok () →
      (after u c dgram g l).isServer = false ∧ id % 4 = 0) := by
  obtain ⟨s, hs, hg, _⟩ := after_good hf hok l
  have hb : opening u s ≠ [] := by simp [opening]
  refine ⟨?_, ?_, ?_⟩
  · intro e he
    rcases goaway_step hg hb id with ⟨e', h⟩ | ⟨u', h, _⟩ <;> rw [h] at he ⊢
    cases he
  · intro e he
    rcases priority_step hg hb id urgency inc with ⟨e', h⟩ | ⟨u', h, _⟩ <;> rw [h] at he ⊢
    cases he
  · intro he
    rcases priority_step hg hb id urgency inc with ⟨e', h⟩ | ⟨u', h, _, _, _, h1, h2, _⟩
    · rw [h] at he; cases he
    · exact ⟨h1, h2⟩

/-! ### What does not hold -/

def server : U := { isServer := true, grease := false, ready := true, lim := 100, first := 5, cap := 1000, next := 3 }

/-- **C178 control_false**: if the peer allows five bytes on a new stream, SETTINGS is cut, without an
error; a GOAWAY that is accepted later completes it. The peer reads a SETTINGS frame with another
value for the maximum size of header sections than was configured, and no GOAWAY. -/
theorem control_false :
    Fresh server ∧ (server.withTransport Config.new false (0, 0, 0)).1 = .ok () ∧
    settings server Config.new false (0, 0, 0) = .ok [0x04, 0x05, 0x06, 0x80, 0x00, 0x80, 0x00] ∧
    accepted server Config.new false (0, 0, 0) [.room 3 100, .goaway 0] = [.goaway 0] ∧
    ((after server Config.new false (0, 0, 0) [.room 3 100, .goaway 0]).st 3).map (·.out) =
      some ([0x00] ++ [0x04, 0x05, 0x06, 0x80, 0x07, 0x01, 0x00]) ∧
    fromBytes 0x04 5 [0x06, 0x80, 0x07, 0x01, 0x00] =
      .ok (.settings { maxFieldSectionSize := some 0x70100, raw := some [(0x06, 0x70100)] }) := by
  refine ⟨⟨rfl, rfl, rfl, rfl, rfl, rfl, rfl⟩, ?_⟩
  decide +kernel

/-- **C178 done_false**: when the control stream cannot be begun for lack of credit, the documented
error is `InternalError`; with credit for one byte it is `Done`, and the connection is closed with
the code for no error. -/
theorem done_false :
    (({ server with cap := 1 } : U).withTransport Config.new false (0, 0, 0)).1 = .error .done ∧
    (({ server with cap := 1 } : U).withTransport Config.new false (0, 0, 0)).2.closed = some 0x100 := by
  decide +kernel

/-! ### A concrete case -/

def client : U := { isServer := false, grease := false, ready := true, lim := 100, first := 1000, cap := 1000, next := 2 }

example : (client.withTransport Config.new false (0, 0, 0)).1 = .ok () ∧
    ((after client Config.new false (0, 0, 0) [.priority 8 9 true, .goaway 4]).st 2).map (·.out) =
      some ([0x00] ++ [0x04, 0x05, 0x06, 0x80, 0x00, 0x80, 0x00] ++
        [0x80, 0x0f, 0x07, 0x00, 0x06, 0x08, 0x75, 0x3d, 0x37, 0x2c, 0x69] ++ [0x07, 0x01, 0x00]) ∧
    (after client Config.new false (0, 0, 0) []).enc = some 6 ∧ (after client Config.new false (0, 0, 0) []).dec = some 10 := by
  decide +kernel

end Verif.Props.C178
