import Verif.H3.Sent
import Verif.H3.Unique

/-!
Invariants of executions of `Verif.H3.Send`: what is on a stream is frames that carry what was
accepted.
-/

namespace Verif.H3.Send
open Verif Verif.H3 Verif.Io

/-- The frames carry this content: HEADERS a field section for the headers, DATA its payload, and
frames of unknown types nothing. -/
inductive Carries : List (Nat × Bytes) → List Out → Prop where
  | nil : Carries [] []
  | headers {fs out block hs} : Carries fs out → Qpack.IsBlock Qpack.IntShort Qpack.decodeTable block hs →
      Carries (fs ++ [(0x01, block)]) (out ++ [.headers hs])
  | data {fs out p} : Carries fs out → Carries (fs ++ [(0x00, p)]) (out ++ p.map .byte)
  | other {fs out ty p} : Carries fs out → ty ∉ knownFrames → Carries (fs ++ [(ty, p)]) out

def types (fs : List (Nat × Bytes)) : List Nat := (fs.map (·.1)).filter (· ∈ knownFrames)

theorem types_append (fs gs : List (Nat × Bytes)) : types (fs ++ gs) = types fs ++ types gs := by
  simp [types]

/-- Header sections, and then content. -/
def Pre (tys : List Nat) (log : List Out) : Prop :=
  ∃ a b, tys = List.replicate a 0x01 ++ List.replicate b 0x00 ∧ 0 < a ∧ (b ≠ 0 → ∃ c, Out.byte c ∈ log)

/-- `Message` for types that are known. -/
def Msg (tys : List Nat) : Prop :=
  ∃ a b c, tys = List.replicate a 0x01 ++ List.replicate b 0x00 ++ List.replicate c 0x01 ∧
    (a = 0 → b = 0 ∧ c = 0) ∧ c ≤ 1 ∧ (b = 0 → c = 0)

theorem msg_nil : Msg [] := ⟨0, 0, 0, rfl, by simp, by simp, by simp⟩

theorem Pre.msg {tys : List Nat} {log : List Out} (h : Pre tys log) : Msg tys := by
  obtain ⟨a, b, h1, h2, _⟩ := h
  exact ⟨a, b, 0, by simp [h1], by omega, by omega, fun _ => rfl⟩

theorem Pre.trailer {tys : List Nat} {log : List Out} (h : Pre tys log) : Msg (tys ++ [0x01]) := by
  obtain ⟨a, b, h1, h2, _⟩ := h
  cases b with
  | zero => exact ⟨a + 1, 0, 0, by simp [h1, List.replicate_succ'], by omega, by omega, fun _ => rfl⟩
  | succ b => exact ⟨a, b + 1, 1, by simp [h1], by omega, by omega, by omega⟩

theorem Pre.data {tys : List Nat} {log : List Out} (h : Pre tys log) (p : Bytes) (hp : p ≠ []) : Pre (tys ++ [0x00]) (log ++ p.map .byte) := by
  obtain ⟨a, b, h1, h2, _⟩ := h
  refine ⟨a, b + 1, by simp [h1, List.replicate_succ'], h2, fun _ => ?_⟩
  cases p with
  | nil => exact absurd rfl hp
  | cons c p => exact ⟨c, by simp⟩

theorem Pre.dataMsg {tys : List Nat} {log : List Out} (h : Pre tys log) : Msg (tys ++ [0x00]) := by
  obtain ⟨a, b, h1, h2, _⟩ := h
  exact ⟨a, b + 1, 0, by simp [h1, List.replicate_succ'], by omega, by omega, fun _ => rfl⟩

theorem Pre.more {tys : List Nat} {log : List Out} (h : Pre tys log) (hs : List Qpack.Header) (hl : ∀ c, Out.byte c ∉ log) :
    Pre (tys ++ [0x01]) (log ++ [.headers hs]) := by
  obtain ⟨a, b, h1, h2, h3⟩ := h
  have hb : b = 0 := by
    cases b with
    | zero => rfl
    | succ b => obtain ⟨c, hc⟩ := h3 (by omega); exact absurd hc (hl c)
  subst hb
  exact ⟨a + 1, 0, by simp [h1, List.replicate_succ'], by omega, by simp⟩

/-- How the state of an entry fits the frames sent before. -/
def Phase (e : Option Ent) (tys : List Nat) (log : List Out) : Prop :=
  match e with
  | none => tys = []
  | some e =>
    e.localFinished = false ∧
      (e.localInit = false → tys = [] ∧ e.trailersSent = false) ∧
      (e.localInit = true → if e.trailersSent then Msg tys else Pre tys log)

theorem Phase.msg {e : Option Ent} {tys : List Nat} {log : List Out} (h : Phase e tys log) : Msg tys := by
  unfold Phase at h
  cases e with
  | none => rw [h]; exact msg_nil
  | some e =>
    obtain ⟨_, h1, h2⟩ := h
    cases hl : e.localInit with
    | false => rw [(h1 hl).1]; exact msg_nil
    | true =>
      have := h2 hl
      split at this
      · exact this
      · exact this.msg

/-- The grammar of what is sent. `fresh`: no request has been sent on this stream. -/
structure Gram (fresh : Prop) (e : Option Ent) (t : Tx) (tys : List Nat) (log : List Out) : Prop where
  fresh : fresh → tys = []
  sealed : t.sealed = true → Msg tys
  opened : t.sealed = false → Phase e tys log

/-- The invariant of a stream. `g`: the grammar is to be kept too. -/
def St (g fresh : Prop) (e : Option Ent) (t : Option Tx) (log : List Out) (ended : Bool) : Prop :=
  match t with
  | none => log = [] ∧ ended = false ∧ (g → ∀ e', e = some e' → e'.localInit = false ∧ e'.trailersSent = false ∧ e'.localFinished = false)
  | some t => ∃ fs, Frames fs t.out ∧ Carries fs log ∧ t.fin = ended ∧ (g → Gram fresh e t (types fs) log)

theorem St.weaken {g fresh fresh' : Prop} {e : Option Ent} {t : Option Tx} {log : List Out} {ended : Bool}
    (h : St g fresh e t log ended) (hf : fresh' → fresh) : St g fresh' e t log ended := by
  unfold St at h ⊢
  cases t with
  | none => exact h
  | some t =>
    obtain ⟨fs, h1, h2, h3, h4⟩ := h
    exact ⟨fs, h1, h2, h3, fun hg => ⟨fun hf' => (h4 hg).fresh (hf hf'), (h4 hg).sealed, (h4 hg).opened⟩⟩

/-- Any change of the entry of a stream that cannot be written. -/
theorem St.sealed {g fresh : Prop} {e e' : Option Ent} {t : Tx} {log : List Out} {ended : Bool}
    (h : St g fresh e (some t) log ended) (hs : t.sealed = true) : St g fresh e' (some t) log ended := by
  obtain ⟨fs, h1, h2, h3, h4⟩ := h
  exact ⟨fs, h1, h2, h3, fun hg => ⟨(h4 hg).fresh, (h4 hg).sealed, fun h => by rw [hs] at h; cases h⟩⟩

theorem St.forget {g fresh : Prop} {e : Option Ent} {t : Option Tx} {log : List Out} {ended : Bool}
    (h : St g fresh e t log ended) (hs : ∀ t', t = some t' → t'.sealed = true) : St g fresh none t log ended := by
  cases t with
  | none => exact ⟨h.1, h.2.1, fun _ _ h => by cases h⟩
  | some t => exact St.sealed h (hs t rfl)

/-- A new entry, when there was none or no request has been sent. -/
theorem St.entry {g fresh : Prop} {e : Option Ent} {t : Option Tx} {log : List Out} {ended : Bool}
    (h : St g fresh e t log ended) (hs : g → e = none ∨ fresh) : St g fresh (some {}) t log ended := by
  cases t with
  | none => exact ⟨h.1, h.2.1, fun _ e' he => by cases he; exact ⟨rfl, rfl, rfl⟩⟩
  | some t =>
    obtain ⟨fs, h1, h2, h3, h4⟩ := h
    refine ⟨fs, h1, h2, h3, fun hg => ⟨(h4 hg).fresh, (h4 hg).sealed, fun hn => ?_⟩⟩
    have : types fs = [] := by
      rcases hs hg with rfl | hf
      · exact (h4 hg).opened hn
      · exact (h4 hg).fresh hf
    exact ⟨rfl, fun _ => ⟨this, rfl⟩, fun h => by cases h⟩

/-- The entry is removed again. -/
theorem St.rollback {g fresh : Prop} {e : Option Ent} {t : Option Tx} {log : List Out} {ended : Bool}
    (h : St g fresh e t log ended) (hf : g → fresh) : St g fresh none t log ended := by
  cases t with
  | none => exact ⟨h.1, h.2.1, fun _ e' he => by cases he⟩
  | some t =>
    obtain ⟨fs, h1, h2, h3, h4⟩ := h
    exact ⟨fs, h1, h2, h3, fun hg => ⟨(h4 hg).fresh, (h4 hg).sealed, fun hn => (h4 hg).fresh (hf hg)⟩⟩

theorem St.drop {g fresh : Prop} {e : Ent} {t : Option Tx} {log : List Out} {ended : Bool}
    (h : St g fresh (some e) t log ended) (hl : e.localFinished = true) : St g fresh none t log ended := by
  cases t with
  | none => exact ⟨h.1, h.2.1, fun _ e' he => by cases he⟩
  | some t =>
    obtain ⟨fs, h1, h2, h3, h4⟩ := h
    refine ⟨fs, h1, h2, h3, fun hg => ⟨(h4 hg).fresh, (h4 hg).sealed, fun hn => ?_⟩⟩
    have := ((h4 hg).opened hn).1
    rw [hl] at this
    cases this

/-- Changes from outside. -/
theorem St.env {g fresh : Prop} {e : Option Ent} {t t' : Tx} {log : List Out} {ended : Bool}
    (h : St g fresh e (some t) log ended) (ho : t'.out = t.out) (hf : t'.fin = t.fin) (hs : t.sealed = true → t'.sealed = true) :
    St g fresh e (some t') log ended := by
  obtain ⟨fs, h1, h2, h3, h4⟩ := h
  refine ⟨fs, by rw [ho]; exact h1, h2, by rw [hf]; exact h3, fun hg => ⟨(h4 hg).fresh, fun _ => ?_, fun hn => (h4 hg).opened ?_⟩⟩
  · cases hx : t.sealed with
    | true => exact (h4 hg).sealed hx
    | false => exact ((h4 hg).opened hx).msg
  · cases hx : t.sealed with
    | true => rw [hs hx] at hn; cases hn
    | false => rfl

theorem St.opened {g fresh : Prop} {e : Option Ent} {log : List Out} {ended : Bool}
    (h : St g fresh e none log ended) (n : Nat) : St g fresh e (some { cap := n }) log ended := by
  obtain ⟨rfl, rfl, h1⟩ := h
  refine ⟨[], .nil, .nil, rfl, fun hg => ⟨fun _ => rfl, fun _ => msg_nil, fun _ => ?_⟩⟩
  unfold Phase
  cases e with
  | none => rfl
  | some e =>
    obtain ⟨q1, q2, q3⟩ := h1 hg e rfl
    exact ⟨q3, fun _ => ⟨rfl, q2⟩, fun h => by rw [q1] at h; cases h⟩

theorem sealed_fin {t : Tx} (h : t.sealed = false) : t.fin = false := by
  unfold Tx.sealed at h
  simp only [Bool.or_eq_false_iff] at h
  exact h.1.1.1

theorem St.grease {g fresh : Prop} {e : Option Ent} {t : Tx} {log : List Out} {ended : Bool} {a b : Nat} {w : Bytes}
    (h : St g fresh e (some t) log ended) (hs : t.sealed = false) (hw : Frames (greaseFrames (draw a) (draw b)) w) :
    St g fresh e (some (t.add w false)) log ended := by
  obtain ⟨fs, h1, h2, h3, h4⟩ := h
  have ht : types (fs ++ greaseFrames (draw a) (draw b)) = types fs := by
    rw [types_append]
    simp [types, greaseFrames, draw_unknown]
  refine ⟨fs ++ greaseFrames (draw a) (draw b), frames_append h1 hw, ?_, ?_, fun hg => ?_⟩
  · have := (h2.other (p := []) (draw_unknown a)).other (p := greaseText) (draw_unknown b)
    simpa [greaseFrames] using this
  · rw [← h3, sealed_fin hs]; rfl
  · rw [ht]
    exact ⟨(h4 hg).fresh, (fun h => by rw [Tx.add_sealed hs] at h; cases h), fun _ => (h4 hg).opened hs⟩

/-- What an entry becomes when headers were sent. -/
theorem St.headers {g fresh : Prop} {e e' : Option Ent} {t : Tx} {log : List Out} {ended fin : Bool} {block w : Bytes}
    {hs : List (Bytes × Bytes)} (h : St g fresh e (some t) log ended) (hs' : t.sealed = false)
    (hb : Qpack.IsBlock Qpack.IntShort Qpack.decodeTable block hs) (hw : Frames [(0x01, block)] w)
    (hg : g → ∀ tys, Phase e tys log → Msg (tys ++ [0x01]) ∧ (fin = false → Phase e' (tys ++ [0x01]) (log ++ [.headers hs]))) :
    St g False e' (some (t.add w fin)) (log ++ [.headers hs]) (ended || fin) := by
  obtain ⟨fs, h1, h2, h3, h4⟩ := h
  have ht : types (fs ++ [(0x01, block)]) = types fs ++ [0x01] := by
    rw [types_append]; rfl
  refine ⟨fs ++ [(0x01, block)], frames_append h1 hw, h2.headers hb, ?_, fun hg' => ?_⟩
  · rw [← h3, sealed_fin hs']; rfl
  · rw [ht]
    have q := hg hg' _ ((h4 hg').opened hs')
    exact ⟨False.elim, fun _ => q.1, fun hn => q.2 (by rw [Tx.add_sealed hs'] at hn; exact hn)⟩

theorem St.data {g fresh : Prop} {e e' : Option Ent} {t : Tx} {log : List Out} {ended fin : Bool} {p w : Bytes}
    (h : St g fresh e (some t) log ended) (hs' : t.sealed = false) (hw : Frames [(0x00, p)] w)
    (hg : g → ∀ tys, Phase e tys log → Msg (tys ++ [0x00]) ∧ (fin = false → Phase e' (tys ++ [0x00]) (log ++ p.map .byte))) :
    St g False e' (some (t.add w fin)) (log ++ p.map .byte) (ended || fin) := by
  obtain ⟨fs, h1, h2, h3, h4⟩ := h
  have ht : types (fs ++ [(0x00, p)]) = types fs ++ [0x00] := by
    rw [types_append]; rfl
  refine ⟨fs ++ [(0x00, p)], frames_append h1 hw, h2.data, ?_, fun hg' => ?_⟩
  · rw [← h3, sealed_fin hs']; rfl
  · rw [ht]
    have q := hg hg' _ ((h4 hg').opened hs')
    exact ⟨False.elim, fun _ => q.1, fun hn => q.2 (by rw [Tx.add_sealed hs'] at hn; exact hn)⟩

/-! ### Executions -/

/-- No request has been sent on the stream. -/
def Fresh (s : S) (id : Nat) : Prop := s.isServer = false ∧ id % 4 = 0 ∧ s.nextReq ≤ id

/-- The invariant of executions. -/
structure Inv (g : Prop) (x : X) : Prop where
  st : ∀ id, isBidi id = true → St g (Fresh x.s id) (x.s.ent id) (x.s.tx id) (x.log id) (x.ended id)
  control : ∀ c, x.s.control = some c → isBidi c = false
  next : x.s.nextReq % 4 = 0

/-- What an application does to keep the grammar: servers do not send requests; clients do not
send responses on their streams; and a server sends no headers but trailers after content. -/
def Proper (x : X) : Act → Prop
  | .request .. => x.s.isServer = false
  | .response id .. => x.s.isServer = true ∨ id % 4 ≠ 0
  | .additional id _ trailer _ _ => trailer = true ∨ ∀ c, Out.byte c ∉ x.log id
  | _ => True

end Verif.H3.Send
