import Verif.Tq.Driver

/-!
C158: what the application gives the HTTP/3 driver for a stream goes out as given, in order and once,
and what it leaves unfinished is cancelled.
-/

namespace Verif.Props.C158
open Verif Verif.Tq.Drv

/-- What frames are on the wire: `i` says whether headers have been sent before. Nothing follows
`err`. -/
def den : Bool → List OF → List WI
  | _, [] => []
  | i, .headers h :: l => .headers h (!i) :: den true l
  | i, .body b fin :: l => b.map WI.byte ++ ((if fin then [WI.fin] else []) ++ den i l)
  | i, .trailers h :: l => .trailers h :: .fin :: den i l
  | _, .err :: _ => []

def hasH : List OF → Bool
  | [] => false
  | .headers _ :: _ => true
  | _ :: l => hasH l

def hasE : List OF → Bool
  | [] => false
  | .err :: _ => true
  | _ :: l => hasE l

theorem hasH_append (a b : List OF) : hasH (a ++ b) = (hasH a || hasH b) := by
  induction a with
  | nil => rfl
  | cons f a ih => cases f <;> simp [hasH, ih]

theorem hasE_append (a b : List OF) : hasE (a ++ b) = (hasE a || hasE b) := by
  induction a with
  | nil => rfl
  | cons f a ih => cases f <;> simp [hasE, ih]

theorem den_append (i : Bool) (a b : List OF) :
    den i (a ++ b) = den i a ++ (bif hasE a then [] else den (i || hasH a) b) := by
  induction a generalizing i with
  | nil => simp [den, hasE, hasH]
  | cons f a ih => cases f <;> simp [den, hasE, hasH, ih]

/-- What the driver has of the application and has not written. -/
def pend (s : S) : List OF := s.queued.toList ++ s.outq

structure Inv (s : S) : Prop where
  pre : s.wire <+: den false s.given
  exact : s.live = true → s.finSent = false →
    den false s.given = s.wire ++ den s.initial (pend s) ∧ hasH s.given = (s.initial || hasH (pend s)) ∧ hasE s.given = hasE (pend s)
  finSent : WI.fin ∈ s.wire → s.finSent = true
  last : WI.fin ∈ s.wire → ∃ w, s.wire = w ++ [WI.fin] ∧ WI.fin ∉ w
  live : s.pc ≠ .idle → s.live = true
  dead : s.live = false → s.recv = .gone ∧ s.queued = none ∧ s.send = .gone
  next : s.pc = .wnext → s.queued = none
  wait : s.queued ≠ none → s.recv ≠ .waiting
  fsq : s.finSent = true → s.queued = none ∧ s.recv ≠ .waiting ∧ (s.recv = .gone ∨ s.outOpen = false ∧ s.outq = [])
  gone : s.live = true → s.recv = .gone → s.finSent = false → ∃ b, s.queued = some (.body b true)
  settled : s.pc = .idle ∨ s.pc = .read → s.live = true → s.finSent = false →
    (s.queued ≠ none ∧ s.blocked = true) ∨ (s.queued = none ∧ s.recv = .waiting) ∨
      (s.queued = none ∧ s.recv = .here ∧ s.flow = true ∧ s.outOpen = false ∧ s.outq = [])
  cancelled : s.cancelled = true → s.outOpen = false ∧ s.finSent = true ∧ WI.fin ∉ s.wire ∧ s.wire = den false s.given ∧ s.flow = false
  cap : s.outq.length ≤ s.cap

theorem inv_server (cap : Nat) (flow : Bool) : Inv (S.server cap flow) := by
  constructor <;> simp [S.server, den, pend, hasH, hasE]

theorem inv_client (cap : Nat) (flow body : Bool) : Inv (S.client cap flow body) := by
  constructor <;> cases body <;> simp [S.client, den, pend, hasH, hasE]

theorem cleanup_inv {s : S} (h : Inv s) : Inv s.cleanup := by
  refine ⟨h.pre, ?_, h.finSent, h.last, ?_, ?_, ?_, ?_, ?_, ?_, ?_, h.cancelled, h.cap⟩ <;> simp [S.cleanup]

theorem cleanup_inv' {s : S} (h1 : s.wire <+: den false s.given) (h2 : WI.fin ∈ s.wire → s.finSent = true)
    (h3 : WI.fin ∈ s.wire → ∃ w, s.wire = w ++ [WI.fin] ∧ WI.fin ∉ w)
    (h4 : s.cancelled = true → s.outOpen = false ∧ s.finSent = true ∧ WI.fin ∉ s.wire ∧ s.wire = den false s.given ∧ s.flow = false)
    (h5 : s.outq.length ≤ s.cap) : Inv s.cleanup := by
  refine ⟨h1, ?_, h2, h3, ?_, ?_, ?_, ?_, ?_, ?_, ?_, h4, h5⟩ <;> simp [S.cleanup]

/-- What the inbound direction leaves as it is. -/
structure Same (s t : S) : Prop where
  live : t.live = s.live
  recv : t.recv = s.recv
  queued : t.queued = s.queued
  initial : t.initial = s.initial
  finSent : t.finSent = s.finSent
  flow : t.flow = s.flow
  cap : t.cap = s.cap
  outq : t.outq = s.outq
  outOpen : t.outOpen = s.outOpen
  given : t.given = s.given
  wire : t.wire = s.wire
  cancelled : t.cancelled = s.cancelled
  blocked : t.blocked = s.blocked

theorem Same.inv {s t : S} (e : Same s t) (h : Inv s) (hp : s.pc = .idle ∨ s.pc = .read) (hq : t.pc = .idle ∨ t.pc = .read)
    (hl : t.pc ≠ .idle → t.live = true) (hg : t.live = false → t.send = .gone) : Inv t := by
  obtain ⟨e1, e2, e3, e4, e5, e6, e7, e8, e9, e10, e11, e12, e13⟩ := e
  constructor
  · rw [e11, e10]; exact h.pre
  · rw [e1, e5, e10, e11, e4]; unfold pend; rw [e3, e8]; exact h.exact
  · rw [e11, e5]; exact h.finSent
  · rw [e11]; exact h.last
  · exact hl
  · intro a; rw [e2, e3]; have := h.dead (e1 ▸ a); exact ⟨this.1, this.2.1, hg a⟩
  · intro a; rcases hq with hq | hq <;> rw [hq] at a <;> cases a
  · rw [e3, e2]; exact h.wait
  · rw [e5, e3, e2, e9, e8]; exact h.fsq
  · rw [e1, e2, e5, e3]; exact h.gone
  · rw [e1, e5, e3, e13, e2, e6, e9, e8]; exact fun _ => h.settled hp
  · rw [e12, e9, e5, e11, e10, e6]; exact h.cancelled
  · rw [e8, e7]; exact h.cap

theorem cleanup_inv_same {s t : S} (e : Same s t) (h : Inv s) : Inv t.cleanup := by
  obtain ⟨e1, e2, e3, e4, e5, e6, e7, e8, e9, e10, e11, e12, e13⟩ := e
  apply cleanup_inv'
  · rw [e11, e10]; exact h.pre
  · rw [e11, e5]; exact h.finSent
  · rw [e11]; exact h.last
  · rw [e12, e9, e5, e11, e10, e6]; exact h.cancelled
  · rw [e8, e7]; exact h.cap

theorem readDone_inv {s t : S} (e : Same s t) (h : Inv s) (hp : s.pc = .read) (hl : s.live = true) (f : Bool) : Inv (t.readDone f) := by
  unfold S.readDone S.gotFin
  have a := e.live
  obtain ⟨e1, e2, e3, e4, e5, e6, e7, e8, e9, e10, e11, e12, e13⟩ := e
  split
  · split
    · exact Same.inv (s := s) ⟨e1, e2, e3, e4, e5, e6, e7, e8, e9, e10, e11, e12, e13⟩ h (.inr hp) (.inr rfl) (fun _ => by rw [e1, hl]) (fun x => by rw [e1, hl] at x; cases x)
    · exact Same.inv (s := s) ⟨e1, e2, e3, e4, e5, e6, e7, e8, e9, e10, e11, e12, e13⟩ h (.inr hp) (.inl rfl) (fun x => absurd rfl x) (fun x => by rw [e1, hl] at x; cases x)
  · exact Same.inv (s := s) ⟨e1, e2, e3, e4, e5, e6, e7, e8, e9, e10, e11, e12, e13⟩ h (.inr hp) (.inl rfl) (fun x => absurd rfl x) (fun x => by rw [e1, hl] at x; cases x)

theorem cleanupIf_inv_same {s t : S} (e : Same s t) (h : Inv s) (hp : s.pc = .idle ∨ s.pc = .read) (hl : s.live = true) : Inv t.cleanupIf := by
  unfold S.cleanupIf
  split
  · exact cleanup_inv_same e h
  · obtain ⟨e1, e2, e3, e4, e5, e6, e7, e8, e9, e10, e11, e12, e13⟩ := e
    exact Same.inv (s := s) ⟨e1, e2, e3, e4, e5, e6, e7, e8, e9, e10, e11, e12, e13⟩ h hp (.inl rfl) (fun x => absurd rfl x) (fun x => by rw [e1, hl] at x; cases x)

theorem read_inv {s : S} (h : Inv s) (hp : s.pc = .read) (o : ROut) (r f : Bool) : Inv (s.read o r f) := by
  have hl : s.live = true := h.live (by rw [hp]; decide)
  have rfl' : Same s s := ⟨rfl, rfl, rfl, rfl, rfl, rfl, rfl, rfl, rfl, rfl, rfl, rfl, rfl⟩
  unfold S.read
  dsimp only
  split
  · exact readDone_inv rfl' h hp hl f
  · split
    · split
      · split
        · exact cleanup_inv_same (s := s) ⟨rfl, rfl, rfl, rfl, rfl, rfl, rfl, rfl, rfl, rfl, rfl, rfl, rfl⟩ h
        · refine readDone_inv (s := s) ?_ h hp hl f
          exact ⟨rfl, rfl, rfl, rfl, rfl, rfl, rfl, rfl, rfl, rfl, rfl, rfl, rfl⟩
      · split
        · exact cleanup_inv_same rfl' h
        · exact readDone_inv rfl' h hp hl f
    · split
      · split
        · exact Same.inv (s := s) ⟨rfl, rfl, rfl, rfl, rfl, rfl, rfl, rfl, rfl, rfl, rfl, rfl, rfl⟩ h (.inr hp) (.inl rfl) (fun x => absurd rfl x) (fun x => by rw [show s.live = false from x] at hl; cases hl)
        · exact readDone_inv rfl' h hp hl f
      · split
        · split
          · exact cleanup_inv_same (s := s) ⟨rfl, rfl, rfl, rfl, rfl, rfl, rfl, rfl, rfl, rfl, rfl, rfl, rfl⟩ h
          · exact Same.inv (s := s) ⟨rfl, rfl, rfl, rfl, rfl, rfl, rfl, rfl, rfl, rfl, rfl, rfl, rfl⟩ h (.inr hp) (.inl rfl) (fun x => absurd rfl x) (fun x => by rw [show s.live = false from x] at hl; cases hl)
        · split
          · exact Same.inv (s := s) ⟨rfl, rfl, rfl, rfl, rfl, rfl, rfl, rfl, rfl, rfl, rfl, rfl, rfl⟩ h (.inr hp) (.inr hp) (fun _ => hl) (fun x => by rw [show s.live = false from x] at hl; cases hl)
          · exact readDone_inv rfl' h hp hl f
          · exact cleanupIf_inv_same (s := s) ⟨rfl, rfl, rfl, rfl, rfl, rfl, rfl, rfl, rfl, rfl, rfl, rfl, rfl⟩ h (.inr hp) hl
          · exact cleanup_inv h

theorem den_body (i : Bool) (b : Bytes) (fin : Bool) (l : List OF) (m : Nat) :
    den i (.body b fin :: l) = (b.take m).map WI.byte ++ den i (.body (b.drop m) fin :: l) := by
  show b.map WI.byte ++ _ = _ ++ ((b.drop m).map WI.byte ++ _)
  rw [← List.append_assoc (List.map WI.byte (b.take m)), ← List.map_append, List.take_append_drop]

theorem fin_notin_bytes (b : Bytes) : WI.fin ∉ b.map WI.byte := by
  intro h; obtain ⟨_, _, e⟩ := List.mem_map.1 h; cases e

/-- `process_writable_stream` is told that something went wrong. -/
theorem refused_inv {s : S} (h : Inv s) (hl : s.live = true) (hf : s.finSent = false) (hq : s.queued ≠ none) (o : WOut)
    (ho : ∀ n, o ≠ .ok n) : Inv (s.refused o) := by
  cases o with
  | ok n => exact absurd rfl (ho n)
  | blocked =>
    refine ⟨h.pre, h.exact, h.finSent, h.last, fun a => absurd rfl a, h.dead, ?_, h.wait, h.fsq, h.gone, fun _ _ _ => .inl ⟨hq, rfl⟩, h.cancelled, h.cap⟩
    intro a; cases a
  | stopped =>
    unfold S.refused
    simp only [hf, Bool.false_eq_true, if_false]
    have hn : WI.fin ∉ s.wire := fun a => by have := h.finSent a; rw [hf] at this; cases this
    have hc : s.cancelled = false := by
      cases hc : s.cancelled with
      | false => rfl
      | true => have := (h.cancelled hc).2.1; rw [hf] at this; cases this
    unfold S.cleanupIf
    split
    · apply cleanup_inv'
      · exact h.pre
      · exact fun a => absurd a hn
      · exact h.last
      · intro a; rw [show s.cancelled = true from a] at hc; cases hc
      · exact h.cap
    · refine ⟨h.pre, fun _ a => ?_, fun a => absurd a hn, h.last, fun a => absurd rfl a, fun a => ?_, fun a => ?_, fun a => absurd rfl a, fun _ => ⟨rfl, by simp, .inl rfl⟩, fun _ _ a => ?_, fun _ _ a => ?_, fun a => ?_, h.cap⟩
      · cases a
      · rw [show s.live = false from a] at hl; cases hl
      · cases a
      · cases a
      · cases a
      · rw [show s.cancelled = true from a] at hc; cases hc
  | other => exact cleanup_inv h

/-- The last frame with FIN is written. -/
theorem onFinSent_inv {s : S} (h1 : s.wire <+: den false s.given) (h2 : ∃ w, s.wire = w ++ [WI.fin] ∧ WI.fin ∉ w)
    (hc : s.cancelled = false) (hl : s.live = true) (hcap : s.outq.length ≤ s.cap) : Inv s.onFinSent := by
  unfold S.onFinSent
  dsimp only
  split
  · apply cleanup_inv'
    · exact h1
    · exact fun _ => rfl
    · exact fun _ => h2
    · intro a; rw [show s.cancelled = true from a] at hc; cases hc
    · exact hcap
  · refine ⟨h1, fun _ a => ?_, fun _ => rfl, fun _ => h2, fun _ => hl, fun a => ?_, fun _ => rfl, fun a => absurd rfl a, fun _ => ⟨rfl, by simp, .inl rfl⟩, fun _ _ a => ?_, fun _ _ a => ?_, fun a => ?_, hcap⟩
    · cases a
    · rw [show s.live = false from a] at hl; cases hl
    · cases a
    · cases a
    · rw [show s.cancelled = true from a] at hc; cases hc

theorem facts {s : S} (h : Inv s) (hl : s.live = true) {fr : OF} (hq : s.queued = some fr) :
    s.recv ≠ .waiting ∧ s.queued ≠ none ∧ s.finSent = false ∧ WI.fin ∉ s.wire ∧ s.cancelled = false ∧
      den false s.given = s.wire ++ den s.initial (fr :: s.outq) ∧ hasH s.given = (s.initial || hasH (fr :: s.outq)) ∧
      hasE s.given = hasE (fr :: s.outq) := by
  have hqn : s.queued ≠ none := by rw [hq]; simp
  have hf : s.finSent = false := by
    cases e : s.finSent with
    | false => rfl
    | true => have := (h.fsq e).1; rw [hq] at this; cases this
  have hc : s.cancelled = false := by
    cases hc : s.cancelled with
    | false => rfl
    | true => have := (h.cancelled hc).2.1; rw [hf] at this; cases this
  obtain ⟨x1, x2, x3⟩ := h.exact hl hf
  unfold pend at x1 x2 x3
  rw [hq] at x1 x2 x3
  exact ⟨h.wait hqn, hqn, hf, (fun a => by have := h.finSent a; rw [hf] at this; cases this), hc, x1, x2, x3⟩

theorem wframe_inv {s : S} (h : Inv s) (hp : s.pc = .wframe) (o : WOut) : Inv (s.wframe o) := by
  have hl : s.live = true := h.live (by rw [hp]; decide)
  have hl' : ∀ {P : Prop}, s.live = false → P := fun a => by rw [hl] at a; cases a
  unfold S.wframe
  dsimp only
  split
  · rename_i hq
    refine ⟨h.pre, h.exact, h.finSent, h.last, fun _ => hl, h.dead, fun _ => hq, h.wait, h.fsq, h.gone, fun a => ?_, h.cancelled, h.cap⟩
    rcases a with a | a <;> cases a
  · rename_i hd hq
    obtain ⟨hw, hqn, hf, hn, hc, x1, x2, x3⟩ := facts h hl hq
    have hc' : ∀ {P : Prop}, s.cancelled = true → P := fun a => by rw [hc] at a; cases a
    have hg : s.recv ≠ .gone := fun a => by obtain ⟨b, e⟩ := h.gone hl a hf; rw [hq] at e; cases e
    split
    · rename_i n
      have e : den false s.given = (s.wire ++ [WI.headers hd (!s.initial)]) ++ den true s.outq := by rw [x1]; simp [den]
      have nf : WI.fin ∉ s.wire ++ [WI.headers hd (!s.initial)] := by simp [hn]
      refine ⟨⟨_, e.symm⟩, fun _ _ => ⟨e, ?_, ?_⟩, fun a => absurd a nf, fun a => absurd a nf, fun _ => hl, fun a => hl' a, fun _ => rfl, fun a => absurd rfl a, fun a => ?_, fun _ a => absurd a hg, fun a => ?_, fun a => hc' a, h.cap⟩
      · rw [x2]; simp [hasH, pend]
      · rw [x3]; simp [hasE, pend]
      · rw [show s.finSent = true from a] at hf; cases hf
      · rcases a with a | a <;> cases a
    · rename_i ho
      exact refused_inv h hl hf hqn o (fun n e => ho n e)
  · rename_i b fin hq
    obtain ⟨hw, hqn, hf, hn, hc, x1, x2, x3⟩ := facts h hl hq
    have hc' : ∀ {P : Prop}, s.cancelled = true → P := fun a => by rw [hc] at a; cases a
    split
    · rename_i hb
      obtain ⟨rfl, rfl⟩ := hb
      have hg : s.recv ≠ .gone := fun a => by obtain ⟨b, e⟩ := h.gone hl a hf; rw [hq] at e; cases e
      refine ⟨h.pre, fun _ _ => ⟨?_, ?_, ?_⟩, fun a => absurd a hn, h.last, fun _ => hl, fun a => hl' a, fun _ => rfl, fun a => absurd rfl a, fun a => ?_, fun _ a => absurd a hg, fun a => ?_, fun a => hc' a, h.cap⟩
      · show den false s.given = s.wire ++ den s.initial s.outq
        rw [x1]; simp [den]
      · show hasH s.given = (s.initial || hasH s.outq)
        rw [x2]; simp [hasH]
      · show hasE s.given = hasE s.outq
        rw [x3]; simp [hasE]
      · rw [show s.finSent = true from a] at hf; cases hf
      · rcases a with a | a <;> cases a
    · -- the receiver is dropped when the body is the last
      have key : Inv (if fin = true then { s with recv := .gone } else s) := by
        split
        · rename_i hfin
          subst hfin
          refine ⟨h.pre, h.exact, h.finSent, h.last, fun _ => hl, fun a => hl' a, fun a => ?_, fun _ => by simp, fun a => ?_, fun _ _ _ => ⟨b, hq⟩, fun a => ?_, h.cancelled, h.cap⟩
          · rw [show s.pc = .wnext from a] at hp; cases hp
          · rw [show s.finSent = true from a] at hf; cases hf
          · rcases a with a | a <;> rw [show s.pc = _ from a] at hp <;> cases hp
        · exact h
      have eqs : ∀ {α : Type} (g : S → α), (g { s with recv := .gone } = g s) → g (if fin = true then { s with recv := .gone } else s) = g s := by
        intro α g hg; split
        · exact hg
        · rfl
      split
      · rename_i n
        have e := den_body s.initial b fin s.outq (min n b.length)
        split
        · rename_i hm
          have nf : WI.fin ∉ s.wire ++ (b.take (min n b.length)).map WI.byte := by
            intro a; rcases List.mem_append.1 a with a | a
            · exact hn a
            · exact fin_notin_bytes _ a
          have tot : den false s.given = (s.wire ++ (b.take (min n b.length)).map WI.byte) ++ den s.initial (.body (b.drop (min n b.length)) fin :: s.outq) := by
            rw [x1, e, List.append_assoc]
          rw [eqs (·.wire) rfl]
          split
          · rename_i hfin
            subst hfin
            refine ⟨⟨_, tot.symm⟩, fun _ _ => ⟨tot, ?_, ?_⟩, fun a => absurd a nf, fun a => absurd a nf, fun a => absurd rfl a, fun a => hl' a, fun a => ?_, fun _ => by simp, fun a => ?_, fun _ _ _ => ⟨_, rfl⟩, fun _ _ _ => .inl ⟨by simp, rfl⟩, fun a => hc' a, h.cap⟩
            · rw [x2]; rfl
            · rw [x3]; rfl
            · cases a
            · rw [show s.finSent = true from a] at hf; cases hf
          · rename_i hfin
            have hg : s.recv ≠ .gone := fun a => by obtain ⟨b', e⟩ := h.gone hl a hf; rw [hq] at e; injection e with e; injection e with _ e; exact hfin e
            refine ⟨⟨_, tot.symm⟩, fun _ _ => ⟨tot, ?_, ?_⟩, fun a => absurd a nf, fun a => absurd a nf, fun a => absurd rfl a, fun a => hl' a, fun a => ?_, fun _ => hw, fun a => ?_, fun _ a => absurd a hg, fun _ _ _ => .inl ⟨by simp, rfl⟩, fun a => hc' a, h.cap⟩
            · rw [x2]; rfl
            · rw [x3]; rfl
            · cases a
            · rw [show s.finSent = true from a] at hf; cases hf
        · rename_i hm
          have hm : min n b.length = b.length := Decidable.not_not.1 hm
          rw [hm, List.take_length, List.drop_length]
          rw [eqs (·.wire) rfl]
          have nf : WI.fin ∉ s.wire ++ b.map WI.byte := by
            intro a; rcases List.mem_append.1 a with a | a
            · exact hn a
            · exact fin_notin_bytes _ a
          cases fin with
          | true =>
            simp only [if_true]
            apply onFinSent_inv
            · exact ⟨den s.initial s.outq, by show (s.wire ++ _ ++ _) ++ _ = _; rw [x1]; simp [den]⟩
            · exact ⟨_, rfl, nf⟩
            · exact hc
            · exact hl
            · exact h.cap
          | false =>
            simp only [Bool.false_eq_true, if_false]
            have hg : s.recv ≠ .gone := fun a => by obtain ⟨b', e⟩ := h.gone hl a hf; rw [hq] at e; injection e with e; injection e with _ e; cases e
            have tot : den false s.given = (s.wire ++ b.map WI.byte) ++ den s.initial s.outq := by rw [x1]; simp [den]
            refine ⟨⟨_, tot.symm⟩, fun _ _ => ⟨tot, ?_, ?_⟩, fun a => absurd a nf, fun a => absurd a nf, fun _ => hl, fun a => hl' a, fun _ => rfl, fun a => absurd rfl a, fun a => ?_, fun _ a => absurd a hg, fun a => ?_, fun a => hc' a, h.cap⟩
            · rw [x2]; rfl
            · rw [x3]; rfl
            · rw [show s.finSent = true from a] at hf; cases hf
            · rcases a with a | a <;> cases a
      · rename_i ho
        refine refused_inv key ?_ ?_ ?_ o (fun n e => ho n e)
        · rw [eqs (·.live) rfl]; exact hl
        · rw [eqs (·.finSent) rfl]; exact hf
        · rw [eqs (·.queued) rfl]; exact hqn
  · rename_i hd hq
    obtain ⟨hw, hqn, hf, hn, hc, x1, x2, x3⟩ := facts h hl hq
    have hc' : ∀ {P : Prop}, s.cancelled = true → P := fun a => by rw [hc] at a; cases a
    split
    · apply onFinSent_inv
      · exact ⟨den s.initial s.outq, by show (s.wire ++ _) ++ _ = _; rw [x1]; simp [den]⟩
      · exact ⟨s.wire ++ [.trailers hd], by simp, by simp [hn]⟩
      · exact hc
      · exact hl
      · exact h.cap
    · rename_i ho
      exact refused_inv h hl hf hqn o (fun n e => ho n e)
  · rename_i hq
    obtain ⟨hw, hqn, hf, hn, hc, x1, x2, x3⟩ := facts h hl hq
    have hc' : ∀ {P : Prop}, s.cancelled = true → P := fun a => by rw [hc] at a; cases a
    apply cleanup_inv'
    · exact h.pre
    · exact h.finSent
    · exact h.last
    · exact h.cancelled
    · exact h.cap

theorem wnext_inv {s : S} (h : Inv s) (hp : s.pc = .wnext) : Inv s.wnext := by
  have hl : s.live = true := h.live (by rw [hp]; decide)
  have hq := h.next hp
  have hl' : ∀ {P : Prop}, s.live = false → P := fun a => by rw [hl] at a; cases a
  unfold S.wnext
  split
  · rename_i hr
    have hg : s.recv ≠ .gone := by rw [hr]; simp
    have hg' : ∀ {P : Prop}, s.recv = .gone → P := fun a => absurd a hg
    split
    · rename_i f l ho
      have hf : s.finSent = false := by
        cases e : s.finSent with
        | false => rfl
        | true =>
          rcases (h.fsq e).2.2 with a | a
          · exact hg' a
          · rw [ho] at a; cases a.2
      have hn : WI.fin ∉ s.wire := fun a => by have := h.finSent a; rw [hf] at this; cases this
      obtain ⟨x1, x2, x3⟩ := h.exact hl hf
      unfold pend at x1 x2 x3
      rw [hq, ho] at x1 x2 x3
      refine ⟨h.pre, fun _ _ => ⟨x1, x2, x3⟩, h.finSent, h.last, fun _ => hl, fun a => hl' a, fun a => ?_, fun _ => ?_, fun a => ?_, fun _ a => hg' a, fun a => ?_, h.cancelled, ?_⟩
      · cases a
      · show s.recv ≠ _; rw [hr]; simp
      · rw [show s.finSent = true from a] at hf; cases hf
      · rcases a with a | a <;> cases a
      · have := h.cap; rw [ho] at this; exact Nat.le_of_succ_le this
    · rename_i ho
      split
      · rename_i hopen
        have hf : s.finSent = false := by
          cases e : s.finSent with
          | false => rfl
          | true =>
            rcases (h.fsq e).2.2 with a | a
            · exact hg' a
            · rw [hopen] at a; cases a.1
        refine ⟨h.pre, h.exact, h.finSent, h.last, fun a => absurd rfl a, fun a => hl' a, fun a => ?_, fun a => absurd hq a, fun a => ?_, fun _ a => ?_, fun _ _ _ => .inr (.inl ⟨hq, rfl⟩), h.cancelled, h.cap⟩
        · cases a
        · rw [show s.finSent = true from a] at hf; cases hf
        · cases a
      · rename_i hopen
        have hopen : s.outOpen = false := by simpa using hopen
        split
        · rename_i hff
          simp only [Bool.and_eq_true, Bool.not_eq_true'] at hff
          obtain ⟨hf, hfl⟩ := hff
          have hn : WI.fin ∉ s.wire := fun a => by have := h.finSent a; rw [hf] at this; cases this
          obtain ⟨x1, x2, x3⟩ := h.exact hl hf
          unfold pend at x1
          rw [hq, ho] at x1
          have x1 : s.wire = den false s.given := by rw [x1]; simp [den]
          unfold S.cleanupIf
          split
          · apply cleanup_inv'
            · exact h.pre
            · exact fun a => absurd a hn
            · exact h.last
            · exact fun _ => ⟨hopen, rfl, hn, x1, hfl⟩
            · exact h.cap
          · refine ⟨h.pre, fun _ a => ?_, fun _ => rfl, h.last, fun a => absurd rfl a, fun a => hl' a, fun a => ?_, fun a => absurd hq a, fun _ => ⟨hq, ?_, .inr ⟨hopen, ho⟩⟩, fun _ a => hg' a, fun _ _ a => ?_, fun _ => ⟨hopen, rfl, hn, x1, hfl⟩, h.cap⟩
            · cases a
            · cases a
            · show s.recv ≠ _; rw [hr]; simp
            · cases a
        · rename_i hff
          refine ⟨h.pre, h.exact, h.finSent, h.last, fun a => absurd rfl a, fun a => hl' a, fun a => ?_, h.wait, h.fsq, h.gone, fun _ _ a => .inr (.inr ⟨hq, hr, ?_, hopen, ho⟩), h.cancelled, h.cap⟩
          · cases a
          · rw [show s.finSent = false from a] at hff; simpa using hff
  · rename_i hr
    refine ⟨h.pre, h.exact, h.finSent, h.last, fun a => absurd rfl a, fun a => hl' a, fun a => ?_, h.wait, h.fsq, h.gone, fun _ _ a => ?_, h.cancelled, h.cap⟩
    · cases a
    · cases e : s.recv with
      | here => exact absurd e hr
      | waiting => exact .inr (.inl ⟨hq, rfl⟩)
      | gone => obtain ⟨b, x⟩ := h.gone hl e a; rw [hq] at x; cases x

theorem step_inv {s t : S} (h : Inv s) (op : Op) (hs : s.step op = some t) : Inv t := by
  have hl' : ∀ {P : Prop}, s.live = true → s.live = false → P := fun hl a => by rw [hl] at a; cases a
  have rfl' : Same s s := ⟨rfl, rfl, rfl, rfl, rfl, rfl, rfl, rfl, rfl, rfl, rfl, rfl, rfl⟩
  cases op with
  | push f =>
    simp only [S.step] at hs
    split at hs
    · rename_i hc
      obtain ⟨h1, h2, h3⟩ := hc
      injection hs with hs; subst hs
      have hf : s.finSent = false := by
        cases e : s.finSent with
        | false => rfl
        | true => rcases (h.fsq e).2.2 with a | a
                  · exact absurd a h2
                  · rw [h1] at a; cases a.1
      have hc : s.cancelled = false := by
        cases hc : s.cancelled with
        | false => rfl
        | true => have := (h.cancelled hc).2.1; rw [hf] at this; cases this
      have pe : pend { s with outq := s.outq ++ [f], given := s.given ++ [f] } = pend s ++ [f] := by
        simp [pend]
      refine ⟨?_, fun hl _ => ?_, h.finSent, h.last, h.live, h.dead, h.next, h.wait, fun a => ?_, h.gone, fun a b c => ?_, fun a => ?_, ?_⟩
      · show s.wire <+: den false (s.given ++ [f])
        rw [den_append]; exact List.IsPrefix.trans h.pre (List.prefix_append _ _)
      · obtain ⟨x1, x2, x3⟩ := h.exact hl hf
        rw [pe]
        show den false (s.given ++ [f]) = s.wire ++ den s.initial (pend s ++ [f]) ∧ hasH (s.given ++ [f]) = (s.initial || hasH (pend s ++ [f])) ∧
          hasE (s.given ++ [f]) = hasE (pend s ++ [f])
        rw [den_append, den_append, hasH_append, hasE_append, hasH_append, hasE_append, x1, x2, x3]
        refine ⟨by simp, by simp [Bool.or_assoc], rfl⟩
      · rw [show s.finSent = true from a] at hf; cases hf
      · rcases h.settled a b c with x | x | x
        · exact .inl x
        · exact .inr (.inl x)
        · rw [h1] at x; cases x.2.2.2.1
      · rw [show s.cancelled = true from a] at hc; cases hc
      · show (s.outq ++ [f]).length ≤ s.cap
        simp; omega
    · cases hs
  | dropOut =>
    injection hs with hs; subst hs
    refine ⟨h.pre, h.exact, h.finSent, h.last, h.live, h.dead, h.next, h.wait, fun a => ?_, h.gone, fun a b c => ?_, fun a => ?_, h.cap⟩
    · obtain ⟨a, b, c⟩ := h.fsq a
      exact ⟨a, b, c.imp id (fun c => ⟨rfl, c.2⟩)⟩
    · rcases h.settled a b c with x | x | x
      · exact .inl x
      · exact .inr (.inl x)
      · exact .inr (.inr ⟨x.1, x.2.1, x.2.2.1, rfl, x.2.2.2.2⟩)
    · exact ⟨rfl, (h.cancelled a).2⟩
  | take =>
    simp only [S.step] at hs
    split at hs
    · split at hs
      · injection hs with hs; subst hs
        exact ⟨h.pre, h.exact, h.finSent, h.last, h.live, h.dead, h.next, h.wait, h.fsq, h.gone, h.settled, h.cancelled, h.cap⟩
      · cases hs
    · cases hs
  | dropIn =>
    injection hs with hs; subst hs
    exact ⟨h.pre, h.exact, h.finSent, h.last, h.live, h.dead, h.next, h.wait, h.fsq, h.gone, h.settled, h.cancelled, h.cap⟩
  | writable =>
    simp only [S.step] at hs
    split at hs
    · injection hs with hs; subst hs
      split
      · rename_i hl
        refine ⟨h.pre, h.exact, h.finSent, h.last, fun _ => hl, fun a => hl' hl a, fun a => ?_, h.wait, h.fsq, h.gone, fun a => ?_, h.cancelled, h.cap⟩
        · cases a
        · rcases a with a | a <;> cases a
      · exact h
    · cases hs
  | recvReady =>
    simp only [S.step] at hs
    split at hs
    · rename_i hc
      obtain ⟨hp, hw⟩ := hc
      have hl : s.live = true := by
        cases e : s.live with
        | true => rfl
        | false => have := (h.dead e).1; rw [hw] at this; cases this
      have hq : s.queued = none := by
        cases e : s.queued with
        | none => rfl
        | some f => exact absurd hw (h.wait (by rw [e]; simp))
      have hf : s.finSent = false := by
        cases e : s.finSent with
        | false => rfl
        | true => exact absurd hw (h.fsq e).2.1
      obtain ⟨x1, x2, x3⟩ := h.exact hl hf
      unfold pend at x1 x2 x3
      split at hs
      · rename_i f l ho
        injection hs with hs; subst hs
        rw [hq, ho] at x1 x2 x3
        refine ⟨h.pre, fun _ _ => ⟨x1, x2, x3⟩, h.finSent, h.last, fun _ => hl, fun a => hl' hl a, fun a => ?_, fun _ => by simp, fun a => ?_, fun _ a => ?_, fun a => ?_, h.cancelled, ?_⟩
        · cases a
        · rw [show s.finSent = true from a] at hf; cases hf
        · cases a
        · rcases a with a | a <;> cases a
        · have := h.cap; rw [ho] at this; exact Nat.le_of_succ_le this
      · split at hs
        · cases hs
        · injection hs with hs; subst hs
          rw [hq] at x1 x2 x3
          refine ⟨h.pre, fun _ _ => ⟨x1, x2, x3⟩, h.finSent, h.last, fun _ => hl, fun a => hl' hl a, fun a => ?_, fun _ => by simp, fun a => ?_, fun _ a => ?_, fun a => ?_, h.cancelled, h.cap⟩
          · cases a
          · rw [show s.finSent = true from a] at hf; cases hf
          · cases a
          · rcases a with a | a <;> cases a
    · cases hs
  | sendReady =>
    simp only [S.step] at hs
    split at hs
    · rename_i hc
      have hl : s.live = true := by
        cases e : s.live with
        | true => rfl
        | false => have := (h.dead e).2.2; rw [hc.2.1] at this; cases this
      injection hs with hs; subst hs
      exact Same.inv (s := s) ⟨rfl, rfl, rfl, rfl, rfl, rfl, rfl, rfl, rfl, rfl, rfl, rfl, rfl⟩ h (.inl hc.1) (.inr rfl) (fun _ => hl) (fun a => hl' hl a)
    · cases hs
  | data =>
    simp only [S.step] at hs
    split at hs
    · rename_i hc
      injection hs with hs; subst hs
      split
      · rename_i hl
        exact Same.inv (s := s) ⟨rfl, rfl, rfl, rfl, rfl, rfl, rfl, rfl, rfl, rfl, rfl, rfl, rfl⟩ h (.inl hc.1) (.inr rfl) (fun _ => hl) (fun a => hl' hl a)
      · exact Same.inv (s := s) ⟨rfl, rfl, rfl, rfl, rfl, rfl, rfl, rfl, rfl, rfl, rfl, rfl, rfl⟩ h (.inl hc.1) (.inl hc.1) h.live (fun a => (h.dead a).2.2)
    · cases hs
  | fin =>
    simp only [S.step] at hs
    split at hs
    · rename_i hc
      injection hs with hs; subst hs
      unfold S.gotFin
      split
      · rename_i hl
        have hl : s.live = true := by simp at hl; exact hl.1
        exact Same.inv (s := s) ⟨rfl, rfl, rfl, rfl, rfl, rfl, rfl, rfl, rfl, rfl, rfl, rfl, rfl⟩ h (.inl hc) (.inr rfl) (fun _ => hl) (fun a => hl' hl a)
      · exact Same.inv (s := s) ⟨rfl, rfl, rfl, rfl, rfl, rfl, rfl, rfl, rfl, rfl, rfl, rfl, rfl⟩ h (.inl hc) (.inl rfl) (fun a => absurd rfl a) (fun a => (h.dead a).2.2)
    · cases hs
  | reset =>
    simp only [S.step] at hs
    split at hs
    · rename_i hc
      injection hs with hs; subst hs
      split
      · rename_i hl
        exact cleanupIf_inv_same (s := s) ⟨rfl, rfl, rfl, rfl, rfl, rfl, rfl, rfl, rfl, rfl, rfl, rfl, rfl⟩ h (.inl hc) hl
      · exact h
    · cases hs
  | headers =>
    simp only [S.step] at hs
    split at hs
    · rename_i hc
      injection hs with hs; subst hs
      split
      · exact h
      · exact Same.inv (s := s) ⟨rfl, rfl, rfl, rfl, rfl, rfl, rfl, rfl, rfl, rfl, rfl, rfl, rfl⟩ h (.inl hc.1) (.inl hc.1) h.live (fun a => (h.dead a).2.2)
    · cases hs
  | shutdown r w =>
    simp only [S.step] at hs
    split at hs
    · injection hs with hs; subst hs
      split
      · exact cleanup_inv_same (s := s) ⟨rfl, rfl, rfl, rfl, rfl, rfl, rfl, rfl, rfl, rfl, rfl, rfl, rfl⟩ h
      · exact h
    · cases hs
  | wframe o =>
    simp only [S.step] at hs
    split at hs
    · rename_i hp; injection hs with hs; subst hs; exact wframe_inv h hp o
    · cases hs
  | wnext =>
    simp only [S.step] at hs
    split at hs
    · rename_i hp; injection hs with hs; subst hs; exact wnext_inv h hp
    · cases hs
  | read o r f =>
    simp only [S.step] at hs
    split at hs
    · rename_i hp; injection hs with hs; subst hs; exact read_inv h hp o r f
    · cases hs

theorem run_inv {s t : S} (h : Inv s) (l : List Op) (hs : s.run l = some t) : Inv t := by
  induction l generalizing s with
  | nil => injection hs with hs; subst hs; exact h
  | cons op l ih =>
    simp only [S.run, Option.bind_eq_some_iff] at hs
    obtain ⟨u, h1, h2⟩ := hs
    exact ih (step_inv h op h1) h2

/-- A stream as a server or a client opens it. -/
def Start (s : S) : Prop := ∃ cap flow, s = S.server cap flow ∨ ∃ body, s = S.client cap flow body

theorem start_inv {s : S} (h : Start s) : Inv s := by
  obtain ⟨cap, flow, h | ⟨body, h⟩⟩ := h
  · rw [h]; exact inv_server cap flow
  · rw [h]; exact inv_client cap flow body

/-- In order and once: what `quiche` accepted is a prefix of what the frames of the application stand
for, whatever `quiche` answers and however the two tasks interleave. -/
theorem in_order {s t : S} (h : Start s) (l : List Op) (hr : s.run l = some t) : t.wire <+: den false t.given :=
  (run_inv (start_inv h) l hr).pre

/-- Nothing is lost while the direction is open: what is not written is in the driver or in the
channel. -/
theorem nothing_lost {s t : S} (h : Start s) (l : List Op) (hr : s.run l = some t) (hl : t.live = true) (hf : t.finSent = false) :
    den false t.given = t.wire ++ den t.initial (t.queued.toList ++ t.outq) :=
  ((run_inv (start_inv h) l hr).exact hl hf).1

theorem mem_den {i : Bool} {l : List OF} (h : WI.fin ∈ den i l) : (∃ b, OF.body b true ∈ l) ∨ ∃ h, OF.trailers h ∈ l := by
  induction l generalizing i with
  | nil => cases h
  | cons f l ih =>
    have up : (∃ b, OF.body b true ∈ l) ∨ (∃ h, OF.trailers h ∈ l) → (∃ b, OF.body b true ∈ f :: l) ∨ ∃ h, OF.trailers h ∈ f :: l := by
      rintro (⟨b, x⟩ | ⟨b, x⟩)
      · exact .inl ⟨b, .tail _ x⟩
      · exact .inr ⟨b, .tail _ x⟩
    cases f with
    | headers hd =>
      rcases List.mem_cons.1 h with h | h
      · cases h
      · exact up (ih h)
    | body b fin =>
      rcases List.mem_append.1 h with h | h
      · exact absurd h (fin_notin_bytes b)
      · rcases List.mem_append.1 h with h | h
        · cases fin with
          | true => exact .inl ⟨b, .head _⟩
          | false => cases h
        · exact up (ih h)
    | trailers hd => exact .inr ⟨hd, .head _⟩
    | err => cases h

/-- FIN is sent only if the application asked for it, once, and nothing follows it. -/
theorem fin_asked {s t : S} (h : Start s) (l : List Op) (hr : s.run l = some t) (hf : WI.fin ∈ t.wire) :
    ((∃ b, OF.body b true ∈ t.given) ∨ ∃ h, OF.trailers h ∈ t.given) ∧ ∃ w, t.wire = w ++ [WI.fin] ∧ WI.fin ∉ w :=
  have i := run_inv (start_inv h) l hr
  ⟨mem_den (i.pre.subset hf), i.last hf⟩

/-- The driver cancels a request or response with RESET_STREAM only if the application dropped its end
without ending the body, and only after all it had given was written. -/
theorem cancels_only {s t : S} (h : Start s) (l : List Op) (hr : s.run l = some t) (hc : t.cancelled = true) :
    t.outOpen = false ∧ t.wire = den false t.given ∧ WI.fin ∉ t.wire ∧ t.flow = false :=
  have x := (run_inv (start_inv h) l hr).cancelled hc
  ⟨x.1, x.2.2.2.1, x.2.2.1, x.2.2.2.2⟩

/-- No lost wake-up: whenever the driver has nothing to do for an open stream, it holds a frame that
`quiche` had no room for, or waits for the application, or all is written and the stream stays open
for a flow of datagrams. -/
theorem waits {s t : S} (h : Start s) (l : List Op) (hr : s.run l = some t) (hp : t.pc = .idle) (hl : t.live = true) (hf : t.finSent = false) :
    (t.queued ≠ none ∧ t.blocked = true) ∨ (t.queued = none ∧ t.recv = .waiting) ∨
      (t.wire = den false t.given ∧ t.flow = true ∧ t.outOpen = false) := by
  have i := run_inv (start_inv h) l hr
  rcases i.settled (.inl hp) hl hf with x | x | ⟨x1, x2, x3, x4, x5⟩
  · exact .inl x
  · exact .inr (.inl x)
  · refine .inr (.inr ⟨?_, x3, x4⟩)
    have := (i.exact hl hf).1
    unfold pend at this
    rw [x1, x5] at this
    simp [den] at this
    exact this.symm

/-- The assertion of `process_writable_stream`: a stream that waits for the application, or is done,
has no frame left over. -/
theorem no_assert {s t : S} (h : Start s) (l : List Op) (hr : s.run l = some t) (hp : t.pc = .wnext) : t.queued = none :=
  (run_inv (start_inv h) l hr).next hp

/-- The channel never holds more than its capacity. -/
theorem bounded {s t : S} (h : Start s) (l : List Op) (hr : s.run l = some t) : t.outq.length ≤ t.cap :=
  (run_inv (start_inv h) l hr).cap

/-- The steps of the driver that write, when `quiche` accepts everything. -/
def Accepts : Op → Prop
  | .writable | .recvReady | .wnext => True
  | .wframe (.ok _) => True
  | _ => False

theorem run_append (s : S) (a b : List Op) : s.run (a ++ b) = (s.run a).bind fun t => t.run b := by
  induction a generalizing s with
  | nil => rfl
  | cons op a ih =>
    show (s.step op).bind _ = ((s.step op).bind _).bind _
    cases s.step op with
    | none => rfl
    | some u => exact ih u

/-- One frame is written. -/
theorem wframe_ok {s : S} (h : Inv s) (hp : s.pc = .wframe) (hf : s.finSent = false) (he : hasE (pend s) = false) :
    ∃ n, (s.wframe (.ok n)).given = s.given ∧ (s.wframe (.ok n)).outq = s.outq ∧ (s.wframe (.ok n)).outOpen = s.outOpen ∧
      (WI.fin ∈ (s.wframe (.ok n)).wire ∨ (s.wframe (.ok n)).pc = .wnext ∧ (s.wframe (.ok n)).finSent = false ∧
        (s.wframe (.ok n)).live = true ∧ (s.wframe (.ok n)).recv = s.recv) := by
  have hl : s.live = true := h.live (by rw [hp]; decide)
  have fs : ∀ u : S, u.onFinSent.given = u.given ∧ u.onFinSent.outq = u.outq ∧ u.onFinSent.outOpen = u.outOpen ∧ u.onFinSent.wire = u.wire := by
    intro u; unfold S.onFinSent S.cleanup; dsimp only; split <;> exact ⟨rfl, rfl, rfl, rfl⟩
  cases hq : s.queued with
  | none =>
    refine ⟨0, ?_⟩
    simp only [S.wframe, hq]
    exact ⟨trivial, trivial, trivial, .inr ⟨trivial, hf, hl, trivial⟩⟩
  | some fr =>
    cases fr with
    | headers hd =>
      refine ⟨0, ?_⟩
      simp only [S.wframe, hq]
      exact ⟨trivial, trivial, trivial, .inr ⟨trivial, hf, hl, trivial⟩⟩
    | body b fin =>
      refine ⟨b.length, ?_⟩
      simp only [S.wframe, hq, Nat.min_self, ne_eq, not_true, if_false]
      split
      · exact ⟨rfl, rfl, rfl, .inr ⟨rfl, hf, hl, rfl⟩⟩
      · cases fin with
        | false => simp; exact .inr ⟨hf, hl⟩
        | true =>
          simp only [if_true]
          rw [(fs _).1, (fs _).2.1, (fs _).2.2.1, (fs _).2.2.2]
          exact ⟨rfl, rfl, rfl, .inl (by simp)⟩
    | trailers hd =>
      refine ⟨0, ?_⟩
      simp only [S.wframe, hq]
      rw [(fs _).1, (fs _).2.1, (fs _).2.2.1, (fs _).2.2.2]
      exact ⟨rfl, rfl, rfl, .inl (by simp)⟩
    | err => unfold pend at he; rw [hq] at he; cases he

theorem flush {n : Nat} : ∀ {s : S}, s.outq.length ≤ n → Inv s → s.pc = .wframe → s.finSent = false → s.recv ≠ .waiting → hasE s.given = false →
    ∃ l, (∀ op ∈ l, Accepts op) ∧ ∃ t, s.run l = some t ∧ t.given = s.given ∧ (WI.fin ∈ t.wire ∨ t.wire = den false t.given) := by
  induction n with
  | zero =>
    intro s ho h hp hf hw he
    have hl : s.live = true := h.live (by rw [hp]; decide)
    obtain ⟨n, x1, x2, x3, x4⟩ := wframe_ok h hp hf (by rw [← (h.exact hl hf).2.2]; exact he)
    have iu := wframe_inv h hp (.ok n)
    refine ⟨[.wframe (.ok n)], by simp [Accepts], s.wframe (.ok n), by simp [S.run, S.step, hp], x1, ?_⟩
    rcases x4 with x4 | ⟨y1, y2, y3, y4⟩
    · exact .inl x4
    · right
      have := (iu.exact y3 y2).1
      unfold pend at this
      rw [iu.next y1, x2, List.eq_nil_of_length_eq_zero (Nat.le_zero.1 ho)] at this
      simpa [den] using this.symm
  | succ k ih =>
    intro s ho h hp hf hw he
    have hl : s.live = true := h.live (by rw [hp]; decide)
    obtain ⟨n, x1, x2, x3, x4⟩ := wframe_ok h hp hf (by rw [← (h.exact hl hf).2.2]; exact he)
    have iu := wframe_inv h hp (.ok n)
    have r1 : s.run [.wframe (.ok n)] = some (s.wframe (.ok n)) := by simp [S.run, S.step, hp]
    rcases x4 with x4 | ⟨y1, y2, y3, y4⟩
    · exact ⟨[.wframe (.ok n)], by simp [Accepts], _, r1, x1, .inl x4⟩
    · have qn := iu.next y1
      cases hq : s.outq with
      | nil =>
        refine ⟨[.wframe (.ok n)], by simp [Accepts], _, r1, x1, .inr ?_⟩
        have := (iu.exact y3 y2).1
        unfold pend at this
        rw [qn, x2, hq] at this
        simpa [den] using this.symm
      | cons f l =>
        generalize hu : s.wframe (.ok n) = u at *
        have rh : u.recv = .here := by
          cases e : u.recv with
          | here => rfl
          | gone => obtain ⟨b, x⟩ := iu.gone y3 e y2; rw [qn] at x; cases x
          | waiting => rw [y4] at e; exact absurd e hw
        have iv := wnext_inv iu y1
        have ev : u.wnext = { u with queued := some f, outq := l, pc := .wframe } := by
          unfold S.wnext; rw [rh, x2, hq]
        have hv : u.wnext.outq.length ≤ k ∧ u.wnext.pc = .wframe ∧ u.wnext.finSent = false ∧ u.wnext.recv ≠ .waiting ∧ u.wnext.given = s.given := by
          rw [ev]; refine ⟨?_, rfl, y2, ?_, x1⟩
          · rw [hq] at ho; exact Nat.le_of_succ_le_succ ho
          · show u.recv ≠ _; rw [rh]; simp
        obtain ⟨l', a1, t, a2, a3, a4⟩ := ih hv.1 iv hv.2.1 hv.2.2.1 hv.2.2.2.1 (by rw [hv.2.2.2.2]; exact he)
        refine ⟨[.wframe (.ok n)] ++ ([.wnext] ++ l'), ?_, t, ?_, by rw [a3, hv.2.2.2.2], a4⟩
        · intro op hop
          rcases List.mem_append.1 hop with hop | hop
          · rw [List.mem_singleton.1 hop]; trivial
          · rcases List.mem_append.1 hop with hop | hop
            · rw [List.mem_singleton.1 hop]; trivial
            · exact a1 op hop
        · rw [run_append, r1]
          show u.run _ = _
          rw [run_append]
          have : u.run [.wnext] = some u.wnext := by simp [S.run, S.step, y1]
          rw [this]; exact a2

theorem hasE_iff (l : List OF) : hasE l = false ↔ OF.err ∉ l := by
  induction l with
  | nil => simp [hasE]
  | cons f l ih => cases f <;> simp [hasE, ih]

/-- If from now on `quiche` accepts what it is given, the driver writes everything that the
application gave, or up to the FIN that it asked for. -/
theorem flushes {s t : S} (h : Start s) (l : List Op) (hr : s.run l = some t) (hp : t.pc = .idle) (hl : t.live = true) (hf : t.finSent = false)
    (he : OF.err ∉ t.given) :
    ∃ l', (∀ op ∈ l', Accepts op) ∧ ∃ u, t.run l' = some u ∧ u.given = t.given ∧ (WI.fin ∈ u.wire ∨ u.wire = den false u.given) := by
  have i := run_inv (start_inv h) l hr
  have he := (hasE_iff _).2 he
  rcases i.settled (.inl hp) hl hf with ⟨x1, x2⟩ | ⟨x1, x2⟩ | ⟨x1, x2, x3, x4, x5⟩
  · have hs : t.step .writable = some { t with pc := .wframe, blocked := false } := by simp [S.step, hp, hl]
    have iu := step_inv i _ hs
    obtain ⟨l', a1, u, a2, a3, a4⟩ := flush (Nat.le_refl _) iu rfl hf (i.wait x1) he
    refine ⟨.writable :: l', ?_, u, ?_, a3, a4⟩
    · intro op hop
      rcases List.mem_cons.1 hop with hop | hop
      · rw [hop]; trivial
      · exact a1 op hop
    · show (t.step _).bind _ = _
      rw [hs]; exact a2
  · cases ho : t.outq with
    | nil =>
      refine ⟨[], by simp, t, rfl, rfl, .inr ?_⟩
      have := (i.exact hl hf).1
      unfold pend at this
      rw [x1, ho] at this
      simpa [den] using this.symm
    | cons f q =>
      have hs : t.step .recvReady = some { t with recv := .here, queued := some f, outq := q, pc := .wframe } := by
        simp only [S.step, hp, x2, and_self, if_true, ho]
      have iu := step_inv i _ hs
      obtain ⟨l', a1, u, a2, a3, a4⟩ := flush (Nat.le_refl _) iu rfl hf (by simp) he
      refine ⟨.recvReady :: l', ?_, u, ?_, a3, a4⟩
      · intro op hop
        rcases List.mem_cons.1 hop with hop | hop
        · rw [hop]; trivial
        · exact a1 op hop
      · show (t.step _).bind _ = _
        rw [hs]; exact a2
  · refine ⟨[], by simp, t, rfl, rfl, .inr ?_⟩
    have := (i.exact hl hf).1
    unfold pend at this
    rw [x1, x5] at this
    simpa [den] using this.symm

/-- If the application dropped its end without ending the body, and all is written, the stream is
cancelled as soon as the driver sees that. -/
theorem cancels {s t : S} (h : Start s) (l : List Op) (hr : s.run l = some t) (hp : t.pc = .idle) (hl : t.live = true) (hf : t.finSent = false)
    (ho : t.outOpen = false) (hq : t.outq = []) (hn : t.queued = none) (hfl : t.flow = false) (o : WOut) :
    ∃ u, t.run [.recvReady, .wframe o, .wnext] = some u ∧ u.cancelled = true := by
  have i := run_inv (start_inv h) l hr
  rcases i.settled (.inl hp) hl hf with x | x | x
  · exact absurd hn x.1
  · refine ⟨_, by simp only [S.run, S.step, hp, x.2, and_self, if_true, hq, ho, Bool.false_eq_true, if_false, Option.bind, S.wframe]; rfl, ?_⟩
    simp only [S.wnext, hq, ho, hf, hfl, Bool.false_eq_true, if_false, Bool.not_false, Bool.and_self, if_true, S.cleanupIf, S.cleanup]
    split <;> rfl
  · rw [hfl] at x; cases x.2.2.1

/-- A response in three frames, with room in `quiche` only for a part of the body at first: the rest is
written when there is room, then FIN. -/
example : (((S.server 16 false).run [.push (.headers [7]), .push (.body [1, 2, 3] false), .recvReady, .wframe (.ok 0), .wnext,
    .push (.body [4] true), .wframe (.ok 2), .writable, .wframe (.ok 9), .wnext, .wframe (.ok 9), .wnext]).map fun t =>
      (t.wire, t.finSent, t.live)) =
    some ([.headers [7] true, .byte 1, .byte 2, .byte 3, .byte 4, .fin], true, true) := by decide +kernel

/-- The application drops its end after headers and a part of a body. -/
example : (((S.server 16 false).run [.push (.headers [7]), .push (.body [1] false), .dropOut, .recvReady, .wframe (.ok 0), .wnext,
    .wframe (.ok 9), .wnext]).map fun t => (t.wire, t.cancelled)) = some ([.headers [7] true, .byte 1], true) := by decide +kernel

end Verif.Props.C158
