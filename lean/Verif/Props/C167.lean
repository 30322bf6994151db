import Verif.Props.C166

/-!
C167: a stateless reset ends a connection exactly if its token is that of one of the server's
connection IDs that are not retired. The code knows one token, that of the parameters it has:
the claim holds as long as the server uses one connection ID and no session is resumed, and is
false otherwise, in both directions.
-/

namespace Verif.Props.C167
open Verif Verif.Tp Verif.Resume
open Verif.Props.C166 (Later)

/-- A datagram that could be a stateless reset with token `t` (RFC 9000, 10.3). -/
def Carries (d : Bytes) (t : Nat) : Prop := ∃ front, d = front ++ beBytes 16 t ∧ 5 ≤ front.length

/-- The server gave the token `t` with its connection ID `seq`: with the first in the
parameters of the handshake, with others in a NEW_CONNECTION_ID frame. -/
def Told (c : Client) (evs : List Ev) (seq t : Nat) : Prop :=
  (seq = 0 ∧ ∃ a raw b tp, evs = a ++ .params raw :: b ∧ (c.run a).parsed = false ∧
    peerParams (c.run a).ids raw c.track = .ok (some tp) ∧ tp.resetToken = some t) ∨
  ∃ cid rpt, .newCid cid seq t rpt ∈ evs

/-- The connection ID `seq` was retired, by the client or on demand of the server. -/
def Gone (evs : List Ev) (seq : Nat) : Prop := .retire seq ∈ evs ∨ ∃ cid n t rpt, .newCid cid n t rpt ∈ evs ∧ seq < rpt

/-- The token `t` is that of a connection ID the server has. -/
def Owned (c : Client) (evs : List Ev) (t : Nat) : Prop := ∃ seq, Told c evs seq t ∧ ¬ Gone evs seq

theorem run_append (c : Client) (a b : List Ev) : c.run (a ++ b) = (c.run a).run b := by
  unfold Client.run
  rw [List.foldl_append]

theorem carries_iff (d : Bytes) (t : Nat) : Carries d t ↔ 21 ≤ d.length ∧ d.drop (d.length - 16) = beBytes 16 t := by
  constructor
  · rintro ⟨front, rfl, h⟩
    refine ⟨by simp; omega, ?_⟩
    rw [show (front ++ beBytes 16 t).length - 16 = front.length by simp, List.drop_left]
  · rintro ⟨h1, h2⟩
    refine ⟨d.take (d.length - 16), ?_, by rw [List.length_take]; omega⟩
    rw [← h2, List.take_append_drop]

/-- A datagram ends a connection exactly if it carries the token of the parameters in force. -/
theorem reset_iff (c : Client) (d : Bytes) :
    (c.step (.noise d)).closed = true ↔ c.closed = true ∨ ∃ t, c.tp.resetToken = some t ∧ Carries d t := by
  show (c.onNoise d).closed = true ↔ _
  have hr : c.isReset d = true ↔ ∃ t, c.tp.resetToken = some t ∧ Carries d t := by
    unfold Client.isReset
    simp only [carries_iff]
    split
    · constructor
      · intro h; cases h
      · rintro ⟨t, _, h1, _⟩; omega
    · cases c.tp.resetToken with
      | none => simp
      | some t =>
        simp only [beq_iff_eq, Option.some.injEq, exists_eq_left']
        exact ⟨fun h => ⟨by omega, h⟩, fun h => h.2⟩
  unfold Client.onNoise
  rw [← hr]
  split
  · simp_all
  · simp_all

/-! ### What is in force -/

/-- The parameters in force come from the handshake or from a session that was offered. -/
theorem step_tp (c : Client) (e : Ev) :
    (c.step e).tp = c.tp ∨
    (∃ raw tp, e = .params raw ∧ c.parsed = false ∧ peerParams c.ids raw c.track = .ok (some tp) ∧ (c.step e).tp = tp ∧
      (c.step e).parsed = true) ∨
    ∃ takes sess raw rest tp, e = .session takes (pack sess raw ++ rest) ∧ decode raw c.ids.isServer c.track = .ok tp ∧
      (c.step e).tp = tp := by
  cases e with
  | session takes blob =>
    show (c.setSession takes blob).2.tp = c.tp ∨ _
    generalize hr : c.setSession takes blob = r
    obtain ⟨res, c'⟩ := r
    cases res with
    | error e =>
      rcases C166.refused _ _ _ _ _ hr with rfl | ⟨sess, _, rfl⟩ <;> exact Or.inl rfl
    | ok _ =>
      obtain ⟨sess, raw, rest, tp, rfl, _, _, _, hd, rfl⟩ := (C166.taken_iff ..).1 hr
      refine Or.inr (Or.inr ⟨takes, sess, raw, rest, tp, rfl, hd, ?_⟩)
      show (c.setSession takes (pack sess raw ++ rest)).2.tp = tp
      rw [hr]
      rfl
  | retry s =>
    refine Or.inl ?_
    simp only [Client.step, Client.onRetry]
    split <;> rfl
  | packet s =>
    refine Or.inl ?_
    simp only [Client.step, Client.onPacket]
    split <;> rfl
  | params raw =>
    simp only [Client.step, Client.onParams]
    cases hp : c.parsed with
    | true => exact Or.inl rfl
    | false =>
      simp only [Bool.false_eq_true, if_false]
      cases hq : peerParams c.ids raw c.track with
      | error e => exact Or.inl rfl
      | ok o =>
        cases o with
        | none => exact Or.inl rfl
        | some tp => exact Or.inr (Or.inl ⟨raw, tp, rfl, trivial, hq, rfl, rfl⟩)
  | newCid cid seq token rpt => exact Or.inl rfl
  | retire seq => exact Or.inl rfl
  | noise d =>
    refine Or.inl ?_
    simp only [Client.step, Client.onNoise]
    split <;> rfl

theorem step_track (c : Client) (e : Ev) : (c.step e).track = c.track := by
  cases e with
  | session takes blob =>
    show (c.setSession takes blob).2.track = _
    generalize hr : c.setSession takes blob = r
    obtain ⟨res, c'⟩ := r
    cases res with
    | error e => rcases C166.refused _ _ _ _ _ hr with rfl | ⟨sess, _, rfl⟩ <;> rfl
    | ok _ => obtain ⟨sess, raw, rest, tp, rfl, _, _, _, hd, rfl⟩ := (C166.taken_iff ..).1 hr; rfl
  | retry s => simp only [Client.step, Client.onRetry]; split <;> rfl
  | packet s => simp only [Client.step, Client.onPacket]; split <;> rfl
  | params raw =>
    simp only [Client.step, Client.onParams]
    split
    · rfl
    · split <;> rfl
  | newCid cid seq token rpt => rfl
  | retire seq => rfl
  | noise d => simp only [Client.step, Client.onNoise]; split <;> rfl

theorem run_track (c : Client) : ∀ evs : List Ev, (c.run evs).track = c.track := by
  intro evs
  induction evs generalizing c with
  | nil => rfl
  | cons e evs ih => exact (ih (c.step e)).trans (step_track c e)

theorem step_parsed (c : Client) (e : Ev) :
    (c.step e).parsed = c.parsed ∨ ∃ raw tp, e = .params raw ∧ c.parsed = false ∧ peerParams c.ids raw c.track = .ok (some tp) ∧
      (c.step e).tp = tp ∧ (c.step e).parsed = true := by
  cases e with
  | session takes blob =>
    refine Or.inl ?_
    show (c.setSession takes blob).2.parsed = _
    generalize hr : c.setSession takes blob = r
    obtain ⟨res, c'⟩ := r
    cases res with
    | error e => rcases C166.refused _ _ _ _ _ hr with rfl | ⟨sess, _, rfl⟩ <;> rfl
    | ok _ => obtain ⟨sess, raw, rest, tp, rfl, _, _, _, hd, rfl⟩ := (C166.taken_iff ..).1 hr; rfl
  | retry s => refine Or.inl ?_; simp only [Client.step, Client.onRetry]; split <;> rfl
  | packet s => refine Or.inl ?_; simp only [Client.step, Client.onPacket]; split <;> rfl
  | params raw =>
    simp only [Client.step, Client.onParams]
    cases hp : c.parsed with
    | true => exact Or.inl (by simpa using hp)
    | false =>
      simp only [Bool.false_eq_true, if_false]
      cases hq : peerParams c.ids raw c.track with
      | error e => exact Or.inl hp
      | ok o =>
        cases o with
        | none => exact Or.inl hp
        | some tp => exact Or.inr ⟨raw, tp, rfl, trivial, hq, rfl, rfl⟩
  | newCid cid seq token rpt => exact Or.inl rfl
  | retire seq => exact Or.inl rfl
  | noise d => refine Or.inl ?_; simp only [Client.step, Client.onNoise]; split <;> rfl

/-- Once the parameters of the handshake are there, they stay. -/
theorem run_kept (evs : List Ev) : ∀ (c : Client), (∀ e ∈ evs, Later e) → c.parsed = true →
    (c.run evs).tp = c.tp ∧ (c.run evs).parsed = true := by
  induction evs with
  | nil => intro c _ h; exact ⟨rfl, h⟩
  | cons e evs ih =>
    intro c hl h
    have h1 : (c.step e).tp = c.tp := by
      rcases step_tp c e with h1 | ⟨raw, tp, _, h2, _⟩ | ⟨takes, sess, raw, rest, tp, rfl, _⟩
      · exact h1
      · rw [h] at h2; cases h2
      · exact False.elim (hl _ (List.mem_cons_self ..))
    have h2 : (c.step e).parsed = true := by
      rcases step_parsed c e with h2 | ⟨_, _, _, _, _, _, h2⟩
      · rw [h2, h]
      · exact h2
    have := ih (c.step e) (fun e' he => hl e' (by simp [he])) h2
    exact ⟨this.1.trans h1, this.2⟩

/-- From the handshake on, the token of its parameters is the one that counts, whatever other
connection IDs come and go. -/
theorem handshake_token (c : Client) (evs : List Ev) (d : Bytes) (hl : ∀ e ∈ evs, Later e) (hp : c.parsed = true) :
    (c.run (evs ++ [.noise d])).closed = true ↔ (c.run evs).closed = true ∨ ∃ t, c.tp.resetToken = some t ∧ Carries d t := by
  rw [run_append]
  show ((c.run evs).step (.noise d)).closed = true ↔ _
  rw [reset_iff, (run_kept evs c hl hp).1]

/-- Without a session, the token in force is the one the server told in the handshake. -/
theorem run_told (evs : List Ev) : ∀ (c : Client), (∀ e ∈ evs, Later e) → c.tp.resetToken = none → c.parsed = false →
    ∀ t, (c.run evs).tp.resetToken = some t ↔ ∃ a raw b tp, evs = a ++ .params raw :: b ∧ (c.run a).parsed = false ∧
      peerParams (c.run a).ids raw c.track = .ok (some tp) ∧ tp.resetToken = some t := by
  induction evs with
  | nil =>
    intro c _ h0 _ t
    show c.tp.resetToken = some t ↔ _
    rw [h0]
    simp
  | cons e evs ih =>
    intro c hl h0 hp t
    have hl' : ∀ e' ∈ evs, Later e' := fun e' he => hl e' (by simp [he])
    rcases step_parsed c e with hq | ⟨raw, tp, rfl, _, hq, ht, hs⟩
    · have htp : (c.step e).tp = c.tp := by
        rcases step_tp c e with h1 | ⟨raw, tp, _, _, _, _, h2⟩ | ⟨takes, sess, raw, rest, tp, rfl, _⟩
        · exact h1
        · rw [hq, hp] at h2; cases h2
        · exact False.elim (hl _ (List.mem_cons_self ..))
      have := ih (c.step e) hl' (by rw [htp, h0]) (by rw [hq, hp]) t
      show ((c.step e).run evs).tp.resetToken = some t ↔ _
      rw [this, step_track]
      constructor
      · rintro ⟨a, raw, b, tp, rfl, h1, h2, h3⟩
        exact ⟨e :: a, raw, b, tp, rfl, h1, h2, h3⟩
      · rintro ⟨a, raw, b, tp, h, h1, h2, h3⟩
        cases a with
        | nil =>
          simp only [List.nil_append, List.cons.injEq] at h
          obtain ⟨rfl, rfl⟩ := h
          exfalso
          have hs : (c.step (.params raw)).parsed = true := by
            have h2' : peerParams c.ids raw c.track = .ok (some tp) := h2
            simp only [Client.step, Client.onParams, hp, Bool.false_eq_true, if_false, h2']
          rw [hq, hp] at hs
          cases hs
        | cons x a =>
          simp only [List.cons_append, List.cons.injEq] at h
          obtain ⟨rfl, rfl⟩ := h
          exact ⟨a, raw, b, tp, rfl, h1, h2, h3⟩
    · show ((c.step (.params raw)).run evs).tp.resetToken = some t ↔ _
      rw [(run_kept evs _ hl' hs).1, ht]
      constructor
      · intro h
        exact ⟨[], raw, evs, tp, rfl, hp, hq, h⟩
      · rintro ⟨a, raw', b, tp', h, h1, h2, h3⟩
        cases a with
        | nil =>
          simp only [List.nil_append, List.cons.injEq, Ev.params.injEq] at h
          obtain ⟨rfl, rfl⟩ := h
          have h2' : peerParams c.ids raw c.track = .ok (some tp') := h2
          rw [hq] at h2'
          simp only [Except.ok.injEq, Option.some.injEq] at h2'
          rw [h2', h3]
        | cons x a =>
          simp only [List.cons_append, List.cons.injEq] at h
          obtain ⟨rfl, rfl⟩ := h
          exfalso
          have hk := (run_kept a (c.step (.params raw)) (fun e' he => hl' e' (by simp [he])) hs).2
          have h1' : ((c.step (.params raw)).run a).parsed = false := h1
          rw [hk] at h1'
          cases h1'

/-- There is one connection ID of the server. -/
def Single : Ev → Prop
  | .session .. => False
  | .newCid .. => False
  | .retire _ => False
  | _ => True

/-- As long as the server has one connection ID and no session was resumed, a datagram that
cannot be processed ends the connection exactly if it carries the token of that ID. Missing:
other connection IDs, and resumed sessions, for which the claim is false. -/
theorem reset_partial (limit : Nat) (scid dcid : Bytes) (track : Option Nat) (evs : List Ev) (d : Bytes) (hs : ∀ e ∈ evs, Single e) :
    let c := Client.start limit scid dcid track
    (c.run (evs ++ [.noise d])).closed = true ↔ (c.run evs).closed = true ∨ ∃ t, Owned c evs t ∧ Carries d t := by
  intro c
  have hl : ∀ e ∈ evs, Later e := by
    intro e he
    have := hs e he
    cases e <;> first | trivial | exact this.elim
  have hn : ∀ cid n t rpt, .newCid cid n t rpt ∉ evs := fun cid n t rpt he => (hs _ he).elim
  have ho : ∀ t, Owned c evs t ↔ (c.run evs).tp.resetToken = some t := by
    intro t
    rw [run_told evs c hl rfl rfl t]
    constructor
    · rintro ⟨seq, ⟨_, h⟩ | ⟨cid, rpt, h⟩, _⟩
      · exact h
      · exact (hn _ _ _ _ h).elim
    · intro h
      refine ⟨0, Or.inl ⟨rfl, h⟩, ?_⟩
      rintro (h | ⟨cid, n, t, rpt, h, _⟩)
      · exact (hs _ h).elim
      · exact hn _ _ _ _ h
  rw [run_append]
  show ((c.run evs).step (.noise d)).closed = true ↔ _
  rw [reset_iff]
  simp only [ho]

/-- In any history: what ends the connection carries a token from parameters of the handshake
or from a stored session. Nobody who knows none can end it. -/
theorem closed_by_token (limit : Nat) (scid dcid : Bytes) (track : Option Nat) (evs : List Ev)
    (h : ((Client.start limit scid dcid track).run evs).closed = true) :
    ∃ d t raw tp, .noise d ∈ evs ∧ Carries d t ∧ decode raw false track = .ok tp ∧ tp.resetToken = some t ∧
      (.params raw ∈ evs ∨ ∃ takes sess rest, .session takes (pack sess raw ++ rest) ∈ evs) := by
  have hsrv : ∀ (c : Client) (e : Ev), (c.step e).ids.isServer = c.ids.isServer := by
    intro c e
    cases e with
    | session takes blob =>
      show (c.setSession takes blob).2.ids.isServer = _
      generalize hr : c.setSession takes blob = r
      obtain ⟨res, c'⟩ := r
      cases res with
      | error e => rcases C166.refused _ _ _ _ _ hr with rfl | ⟨sess, _, rfl⟩ <;> rfl
      | ok _ => obtain ⟨sess, raw, rest, tp, rfl, _, _, _, hd, rfl⟩ := (C166.taken_iff ..).1 hr; rfl
    | retry s =>
      simp only [Client.step, Client.onRetry, Ids.onRetry]
      split
      · rfl
      · dsimp only
        split <;> rfl
    | packet s =>
      simp only [Client.step, Client.onPacket, Ids.onPacket]
      split
      · rfl
      · dsimp only
        split <;> rfl
    | params raw =>
      simp only [Client.step, Client.onParams]
      split
      · rfl
      · split <;> rfl
    | newCid cid seq token rpt => rfl
    | retire seq => rfl
    | noise d => simp only [Client.step, Client.onNoise]; split <;> rfl
  let Src (t : Nat) (l : List Ev) : Prop := ∃ raw tp, decode raw false track = .ok tp ∧ tp.resetToken = some t ∧
    (.params raw ∈ l ∨ ∃ takes sess rest, .session takes (pack sess raw ++ rest) ∈ l)
  have key : ∀ (l pre : List Ev) (c : Client), c.track = track → c.ids.isServer = false →
      (∀ t, c.tp.resetToken = some t → Src t pre) →
      (c.closed = true → ∃ d t, .noise d ∈ pre ∧ Carries d t ∧ Src t pre) →
      ((c.run l).closed = true → ∃ d t, .noise d ∈ pre ++ l ∧ Carries d t ∧ Src t (pre ++ l)) := by
    intro l
    induction l with
    | nil =>
      intro pre c _ _ _ h2 h
      simpa using h2 h
    | cons e l ih =>
      intro pre c h1 hi ht hc h
      have mono : ∀ t, Src t pre → Src t (pre ++ [e]) := by
        rintro t ⟨raw, tp, a, b, c | ⟨x, y, z, w⟩⟩
        · exact ⟨raw, tp, a, b, Or.inl (by simp [c])⟩
        · exact ⟨raw, tp, a, b, Or.inr ⟨x, y, z, by simp [w]⟩⟩
      have ht' : ∀ t, (c.step e).tp.resetToken = some t → Src t (pre ++ [e]) := by
        intro t h'
        rcases step_tp c e with hk | ⟨raw, tp, rfl, _, hq, hk, _⟩ | ⟨takes, sess, raw, rest, tp, rfl, hd, hk⟩
        · rw [hk] at h'
          exact mono t (ht t h')
        · rw [hk] at h'
          have hd : decode raw c.ids.isServer c.track = .ok tp := by
            unfold peerParams at hq
            split at hq
            · cases hq
            · split at hq
              · cases hq
              · rename_i hd
                split at hq
                · cases hq; exact hd
                · cases hq
          rw [hi, h1] at hd
          exact ⟨raw, tp, hd, h', Or.inl (by simp)⟩
        · rw [hk] at h'
          rw [hi, h1] at hd
          exact ⟨raw, tp, hd, h', Or.inr ⟨takes, sess, rest, by simp⟩⟩
      have hc' : (c.step e).closed = true → ∃ d t, .noise d ∈ pre ++ [e] ∧ Carries d t ∧ Src t (pre ++ [e]) := by
        intro h'
        by_cases hcl : c.closed = true
        · obtain ⟨d, t, a, b, s⟩ := hc hcl
          exact ⟨d, t, by simp [a], b, mono t s⟩
        · cases e with
          | noise d =>
            obtain h' | ⟨t, a, b⟩ := (reset_iff c d).1 h'
            · exact absurd h' hcl
            · exact ⟨d, t, by simp, b, mono t (ht t a)⟩
          | session takes blob =>
            exfalso
            revert h'
            show (c.setSession takes blob).2.closed = true → False
            generalize hr : c.setSession takes blob = r
            obtain ⟨res, c'⟩ := r
            cases res with
            | error e => rcases C166.refused _ _ _ _ _ hr with rfl | ⟨sess, _, rfl⟩ <;> exact hcl
            | ok _ => obtain ⟨sess, raw, rest, tp, rfl, _, _, _, hd, rfl⟩ := (C166.taken_iff ..).1 hr; exact hcl
          | retry s => exfalso; revert h'; simp only [Client.step, Client.onRetry]; split <;> exact hcl
          | packet s => exfalso; revert h'; simp only [Client.step, Client.onPacket]; split <;> exact hcl
          | params raw =>
            exfalso; revert h'
            simp only [Client.step, Client.onParams]
            split
            · exact hcl
            · split <;> exact hcl
          | newCid cid seq token rpt => exact absurd h' hcl
          | retire seq => exact absurd h' hcl
      have := ih (pre ++ [e]) (c.step e) (by rw [step_track, h1]) (by rw [hsrv, hi]) ht' hc' h
      simpa using this
  obtain ⟨d, t, a, b, raw, tp, x, y, z⟩ := key evs [] (Client.start limit scid dcid track) rfl rfl
    (fun t h => by cases h) (fun h => by cases h) h
  exact ⟨d, t, raw, tp, by simpa using a, b, x, y, by simpa using z⟩

/-! ### Where the claim fails -/

abbrev c0 : Client := C166.c0

/-- A handshake with a server whose token is 8. -/
def shake : List Ev := [.packet [9], .params C166.new]

/-- A reset with token `t`. -/
def reset (t : Nat) : Bytes := [0x40, 1, 2, 3, 4] ++ beBytes 16 t

theorem reset_carries (t : Nat) : Carries (reset t) t := ⟨_, rfl, by decide⟩

/-- The server goes on to its second connection ID, with the token 11. -/
def moved : List Ev := shake ++ [.newCid [10] 1 11 1]

example : ((c0.run moved).dcids.dcids.inner.map fun e => (e.seq, e.token)) = [(1, some 11)] := by decide +kernel

/-- A reset with the token of the only connection ID in use is not noticed: the connection
stays until it times out. -/
theorem missed_false : ¬ ∀ (evs : List Ev) (d : Bytes) (t : Nat), (∀ e ∈ evs, Later e) → Owned c0 evs t → Carries d t →
    (c0.run (evs ++ [.noise d])).closed = true := by
  intro h
  have := h moved (reset 11) 11 (by intro e he; simp [moved, shake] at he; rcases he with rfl | rfl | rfl <;> trivial)
    ⟨1, Or.inr ⟨[10], 1, by simp [moved]⟩, by
      rintro (h | ⟨cid, n, t, rpt, h, hr⟩)
      · simp [moved, shake] at h
      · simp [moved, shake] at h
        omega⟩ (reset_carries 11)
  revert this
  decide +kernel

/-- A reset with the token of a connection ID that was retired ends the connection. -/
theorem retired_false : ¬ ∀ (evs : List Ev) (d : Bytes), (∀ e ∈ evs, Later e) → (c0.run evs).closed = false →
    (c0.run (evs ++ [.noise d])).closed = true → ∃ t, t < 2 ^ 128 ∧ Owned c0 evs t ∧ Carries d t := by
  intro h
  obtain ⟨t, hlt, ⟨seq, ht, hg⟩, hc⟩ := h moved (reset 8)
    (by intro e he; simp [moved, shake] at he; rcases he with rfl | rfl | rfl <;> trivial) (by decide +kernel) (by decide +kernel)
  have h8 : t = 8 := by
    have := ((carries_iff _ _).1 hc).2
    rw [show (reset 8).drop ((reset 8).length - 16) = beBytes 16 8 by decide] at this
    have := congrArg beVal this
    rw [beVal_beBytes, beVal_beBytes, Nat.mod_eq_of_lt (by omega), Nat.mod_eq_of_lt (by omega)] at this
    exact this.symm
  subst h8
  rcases ht with ⟨rfl, _⟩ | ⟨cid, rpt, h⟩
  · exact hg (Or.inr ⟨[10], 1, 11, 1, by simp [moved], by omega⟩)
  · simp [moved, shake] at h

/-- A reset with the token of an earlier connection, which everybody could see on the way when
it was used, ends a connection that resumes the session. -/
theorem resumed_false : ¬ ∀ (evs : List Ev) (d : Bytes), (c0.run evs).closed = false →
    (c0.run (evs ++ [.noise d])).closed = true → ∃ t, Owned c0 evs t ∧ Carries d t := by
  intro h
  obtain ⟨t, ⟨seq, ht, _⟩, _⟩ := h [.session (fun _ => true) (pack [5] C166.old)] (reset 7) (by decide +kernel) (by decide +kernel)
  rcases ht with ⟨_, a, raw, b, tp, h, _⟩ | ⟨cid, rpt, h⟩
  · cases a with
    | nil => simp at h
    | cons x a => simp at h
  · simp at h

/-- The plain case works, and only with enough bytes before the token. -/
example : (c0.run (shake ++ [.noise (reset 8)])).closed = true ∧ (c0.run (shake ++ [.noise (reset 9)])).closed = false ∧
    (c0.run (shake ++ [.noise ((reset 8).drop 1)])).closed = false ∧ (c0.run [.packet [9], .noise (reset 8)]).closed = false := by
  decide +kernel

end Verif.Props.C167
