import Verif.Tq.Flows

/-! # C156 — HTTP/3 datagrams find their flow -/

namespace Verif.Props.C156
open Verif Verif.Tq

/-! ### On the wire -/

/-- What is sent for a flow arrives as the datagram of that flow, whatever room the buffer had before its bytes. -/
theorem round_trip (chk : Bool) {q : Nat} (hq : q < 2 ^ 62) {d : DBuf} (h : d.WF) (hl : d.view.bytes.length + 16 ≤ 2 ^ 63 - 1) :
    ∃ b, addId q d = .ok b ∧ ∃ r, removeId chk (DBuf.fromSlice b.view.bytes) = .ok (q, r) ∧ r.view.bytes = d.view.bytes := by
  obtain ⟨b, hb, hw, hv⟩ := addId_ok hq h hl
  refine ⟨b, hb, ?_⟩
  obtain ⟨n, h1, h2, h3⟩ := varintLen_spec hq
  have hlen : (idBytes q).length = n := by unfold idBytes; rw [h1, Option.getD_some, encVarintLen_length h2]
  have hb' : b.view.bytes.length ≤ vecMax := by
    have := idBytes_len hq
    rw [hv, List.length_append]
    simp only [vecMax]
    omega
  have hwf : (DBuf.fromSlice b.view.bytes).WF := ⟨by simp [DBuf.fromSlice], hb'⟩
  have hbv : (DBuf.fromSlice b.view.bytes).view.bytes = b.view.bytes := by simp [DBuf.view, DBuf.fromSlice]
  have := removeId_eq chk hwf
  have hd : decVarint b.view.bytes = .ok (q, n) := by
    rw [hv]
    unfold idBytes
    rw [h1, Option.getD_some]
    exact decVarint_enc h2 h3 _
  rw [hbv, hd] at this
  obtain ⟨r, hr, -, hr'⟩ := this
  exact ⟨r, hr, by rw [hr', hv, List.drop_left' hlen]⟩

/-- A number that no variable-length integer can hold makes the sender panic, -/
theorem panics (q : Nat) (hq : 2 ^ 62 ≤ q) (d : DBuf) : addId q d = .panic := by
  have : varintLen q = none := by
    unfold varintLen maxVarInt
    rw [if_neg (by omega), if_neg (by omega), if_neg (by omega), if_neg (by omega)]
  unfold addId Cur.putVarint
  rw [this]

/-- and the client may choose such a number: the application is told of a flow that it cannot send on. -/
theorem panic_false : ∃ hs s f, s = FState.run {} [.request 0 hs] ∧ s.chans = [{ flow := f }] ∧ s.failed = false ∧ ∀ d, addId f d = .panic :=
  ⟨[(str ":method", str "CONNECT-UDP"), (str "datagram-flow-id", str "4611686018427387904")], _, 2 ^ 62, rfl, by decide +kernel, by decide +kernel, fun d => panics _ (Nat.le_refl _) d⟩

/-! ### Flows -/

/-- The datagrams that arrived for a flow. -/
def arrived (f : Nat) (log : List (Nat × Bytes)) : List Bytes := (log.filter (fun x => x.1 == f)).map (·.2)

structure Inv (s : FState) : Prop where
  chan : ∀ x ∈ s.flows, ∃ ch, s.chans[x.2]? = some ch ∧ ch.flow = x.1
  sub : ∀ ch ∈ s.chans, (ch.taken ++ ch.pending).Sublist (arrived ch.flow s.log)
  cap : ∀ ch ∈ s.chans, ch.pending.length ≤ flowCap

theorem lookup_mem {l : List (Nat × Nat)} {f c : Nat} (h : l.lookup f = some c) : (f, c) ∈ l := by
  induction l with
  | nil => simp at h
  | cons a l ih =>
    obtain ⟨x, y⟩ := a
    rw [List.lookup_cons] at h
    split at h
    · rename_i he
      simp only [beq_iff_eq] at he
      injection h with h
      simp [he, h]
    · simp [ih h]

theorem inv_insert {s : FState} (h : Inv s) (f : Nat) : Inv (s.insert f) ∧ ∃ c, (s.insert f).find f = some c ∧ (s.insert f).log = s.log ∧
    ∃ ch, (s.insert f).chans[c]? = some ch ∧ ch.flow = f := by
  unfold FState.insert
  cases hf : s.find f with
  | some c => exact ⟨h, c, hf, rfl, h.chan _ (lookup_mem hf)⟩
  | none =>
    refine ⟨⟨?_, ?_, ?_⟩, s.chans.length, by simp [FState.find], rfl, { flow := f }, by simp, rfl⟩
    · intro x hx
      rcases List.mem_cons.mp hx with rfl | hx
      · exact ⟨{ flow := f }, by simp, rfl⟩
      · obtain ⟨ch, h1, h2⟩ := h.chan x hx
        refine ⟨ch, ?_, h2⟩
        show (s.chans ++ [_])[x.2]? = _
        rw [List.getElem?_append_left (List.getElem?_eq_some_iff.mp h1).1, h1]
    · intro ch hc
      rcases List.mem_append.mp hc with hc | hc
      · exact h.sub ch hc
      · simp at hc; subst hc; simp
    · intro ch hc
      rcases List.mem_append.mp hc with hc | hc
      · exact h.cap ch hc
      · simp at hc; subst hc; simp

theorem inv_remove {s : FState} (h : Inv s) (f : Nat) : Inv (s.remove f) :=
  ⟨fun x hx => h.chan x (List.mem_filter.mp hx).1, h.sub, h.cap⟩

theorem inv_cleanup {s : FState} (h : Inv s) (st : Nat) : Inv (s.cleanup st) := by
  unfold FState.cleanup
  split
  · exact h
  · dsimp only
    split
    · exact inv_remove (s := { s with streams := s.streams.filter (fun x => x.1 != st) }) ⟨h.chan, h.sub, h.cap⟩ _
    · exact ⟨h.chan, h.sub, h.cap⟩

/-- Replacing a channel by one of the same flow. -/
theorem inv_set {s : FState} (h : Inv s) {c : Nat} {ch ch' : Chan} (hc : s.chans[c]? = some ch) (hf : ch'.flow = ch.flow)
    (hs : (ch'.taken ++ ch'.pending).Sublist (arrived ch'.flow s.log)) (hp : ch'.pending.length ≤ flowCap) : Inv { s with chans := s.chans.set c ch' } := by
  refine ⟨?_, ?_, ?_⟩
  · intro x hx
    obtain ⟨k, h1, h2⟩ := h.chan x hx
    by_cases he : c = x.2
    · subst he
      refine ⟨ch', ?_, ?_⟩
      · show (s.chans.set _ _)[_]? = _
        rw [List.getElem?_set_self (List.getElem?_eq_some_iff.mp h1).1]
      · rw [h1] at hc; injection hc with hc; rw [hf, ← hc, h2]
    · refine ⟨k, ?_, h2⟩
      show (s.chans.set _ _)[_]? = _
      rw [List.getElem?_set_ne he, h1]
  · intro k hk
    rcases List.mem_or_eq_of_mem_set hk with hk | rfl
    · exact h.sub k hk
    · exact hs
  · intro k hk
    rcases List.mem_or_eq_of_mem_set hk with hk | rfl
    · exact h.cap k hk
    · exact hp

theorem arrived_append (f g : Nat) (log : List (Nat × Bytes)) (d : Bytes) :
    arrived f (log ++ [(g, d)]) = if g = f then arrived f log ++ [d] else arrived f log := by
  unfold arrived
  rw [List.filter_append, List.map_append]
  by_cases h : g = f
  · subst h; simp
  · simp [h, List.filter_cons]

theorem inv_log {s : FState} (h : Inv s) (f : Nat) (d : Bytes) : Inv { s with log := s.log ++ [(f, d)] } := by
  refine ⟨h.chan, fun ch hc => ?_, h.cap⟩
  refine (h.sub ch hc).trans ?_
  rw [arrived_append]
  split
  · exact List.sublist_append_left _ _
  · exact List.Sublist.refl _

theorem inv_step {s : FState} (h : Inv s) (op : FOp) : Inv (s.step op) := by
  cases op with
  | request st hs =>
    simp only [FState.step]
    split
    · exact h
    · split
      · rename_i f _; have := (inv_insert h f).1; exact ⟨this.chan, this.sub, this.cap⟩
      · exact ⟨h.chan, h.sub, h.cap⟩
  | dgram d =>
    simp only [FState.step]
    split
    · rename_i f b _
      obtain ⟨h1, c, h2, h3, ch, h4, h5⟩ := inv_insert h f
      have hi : Inv { s.insert f with log := s.log ++ [(f, b.view.bytes)] } := by
        have := inv_log h1 f b.view.bytes
        rw [h3] at this
        exact this
      have hfind : FState.find { s.insert f with log := s.log ++ [(f, b.view.bytes)] } f = some c := h2
      rw [hfind]
      dsimp only
      unfold FState.send
      dsimp only
      rw [h4]
      dsimp only
      split
      · rename_i hr
        refine inv_set hi (c := c) (ch := ch) h4 rfl ?_ ?_
        · simp only
          rw [h5, arrived_append, if_pos rfl, ← List.append_assoc]
          have := h1.sub ch (List.mem_of_getElem? h4)
          rw [h5, h3] at this
          exact this.append (List.Sublist.refl _)
        · simp only [List.length_append, List.length_singleton]; omega
      · exact hi
    · exact ⟨h.chan, h.sub, h.cap⟩
  | cleanup st => exact inv_cleanup h st
  | shutdown f st => exact inv_remove (inv_cleanup h st) f
  | take c =>
    simp only [FState.step]
    split
    · rename_i ch hc
      split
      · rename_i d t hp
        have h1 := h.sub ch (List.mem_of_getElem? hc)
        have h2 := h.cap ch (List.mem_of_getElem? hc)
        rw [hp] at h1 h2
        refine inv_set h hc rfl ?_ ?_
        · simpa using h1
        · simp only [List.length_cons] at h2; simp only; omega
      · exact h
    · exact h
  | hangup c =>
    simp only [FState.step]
    split
    · rename_i ch hc
      exact inv_set h hc rfl (h.sub ch (List.mem_of_getElem? hc)) (h.cap ch (List.mem_of_getElem? hc))
    · exact h

theorem inv_run {s : FState} (h : Inv s) (l : List FOp) : Inv (s.run l) := by
  induction l generalizing s with
  | nil => exact h
  | cons op l ih => exact ih (inv_step h op)

theorem inv (l : List FOp) : Inv (FState.run {} l) := inv_run ⟨by simp, by simp, by simp⟩ l

/-- What the application gets on the channel of a flow are datagrams that arrived for that flow, each at most once and in order; no more than 2048 wait. -/
theorem in_order (l : List FOp) {ch : Chan} (h : ch ∈ (FState.run {} l).chans) :
    (ch.taken ++ ch.pending).Sublist (arrived ch.flow (FState.run {} l).log) ∧ ch.pending.length ≤ 2048 :=
  ⟨(inv l).sub ch h, (inv l).cap ch h⟩

/-- A datagram that can be read goes to the channel of its flow, which is made if there is none, unless that is full or the application has dropped it. -/
theorem delivered (l : List FOp) (d : Bytes) {f n : Nat} (hv : d.length ≤ 2 ^ 63 - 1) (hd : decVarint d = .ok (f, n)) :
    ∃ c ch, ((FState.run {} l).step (.dgram d)).find f = some c ∧ ((FState.run {} l).step (.dgram d)).chans[c]? = some ch ∧ ch.flow = f ∧
      (∀ c', (FState.run {} l).find f = some c' → c' = c) ∧
      (ch.alive = true → ch.pending.length < 2048 → ch.pending.getLast? = some (d.drop n)) ∧
      ((FState.run {} l).find f = none → ch.pending = [d.drop n]) := by
  have h := inv l
  generalize FState.run {} l = s at h
  have hr := removeId_eq true (d := DBuf.fromSlice d) ⟨by simp [DBuf.fromSlice], hv⟩
  have hb : (DBuf.fromSlice d).view.bytes = d := by simp [DBuf.view, DBuf.fromSlice]
  rw [hb, hd] at hr
  obtain ⟨b, hb1, -, hb2⟩ := hr
  obtain ⟨h1, c, h2, h3, ch, h4, h5⟩ := inv_insert h f
  have hfind : FState.find { s.insert f with log := s.log ++ [(f, b.view.bytes)] } f = some c := h2
  have hold : ∀ c', s.find f = some c' → c' = c := by
    intro c' hc'
    have : s.insert f = s := by unfold FState.insert; rw [hc']
    rw [this, hc'] at h2
    injection h2
  have hnew : s.find f = none → ch = { flow := f } := by
    intro hn
    have e : s.insert f = { s with flows := (f, s.chans.length) :: s.flows, chans := s.chans ++ [{ flow := f }] } := by unfold FState.insert; rw [hn]
    rw [e] at h2 h4
    have hc : c = s.chans.length := by simpa [FState.find] using h2.symm
    subst hc
    simpa using h4.symm
  simp only [FState.step, hb1]
  rw [hfind]
  dsimp only
  unfold FState.send
  dsimp only
  rw [h4]
  dsimp only
  by_cases hroom : ch.alive = true ∧ ch.pending.length < flowCap
  · rw [if_pos hroom]
    refine ⟨c, { ch with pending := ch.pending ++ [b.view.bytes] }, h2, ?_, h5, hold, ?_, ?_⟩
    · show (List.set _ _ _)[_]? = _
      rw [List.getElem?_set_self (List.getElem?_eq_some_iff.mp h4).1]
    · intro _ _; simp [hb2]
    · intro hn; simp [hnew hn, hb2]
  · rw [if_neg hroom]
    refine ⟨c, ch, h2, h4, h5, hold, ?_, ?_⟩
    · intro ha hl; exact absurd ⟨ha, hl⟩ hroom
    · intro hn
      rw [hnew hn] at hroom
      simp at hroom

/-- What cannot be read closes the connection. -/
theorem refused (s : FState) (d : Bytes) (hv : d.length ≤ 2 ^ 63 - 1) {e : OErr} (hd : decVarint d = .error e) : (s.step (.dgram d)).failed = true := by
  have hr := removeId_eq true (d := DBuf.fromSlice d) ⟨by simp [DBuf.fromSlice], hv⟩
  have hb : (DBuf.fromSlice d).view.bytes = d := by simp [DBuf.view, DBuf.fromSlice]
  rw [hb, hd] at hr
  simp only at hr
  simp [FState.step, hr]

/-! ### How long a flow lasts -/

theorem find_insert {s : FState} {f g c : Nat} (h : s.find f = some c) : (s.insert g).find f = some c := by
  unfold FState.insert
  split
  · exact h
  · rename_i hn
    have : f ≠ g := by rintro rfl; rw [hn] at h; simp at h
    simp only [FState.find, List.lookup_cons]
    have hb : (f == g) = false := by simpa using this
    rw [hb]
    exact h

theorem lookup_filter {β : Type} {l : List (Nat × β)} {f g : Nat} (h : f ≠ g) : (l.filter (fun x => x.1 != g)).lookup f = l.lookup f := by
  induction l with
  | nil => rfl
  | cons a l ih =>
    obtain ⟨x, y⟩ := a
    by_cases hx : x = g
    · subst hx
      have hb : (f == x) = false := by simpa using h
      simp [List.filter_cons, List.lookup_cons, hb, ih]
    · simp only [List.filter_cons, bne_iff_ne, ne_eq, hx, not_false_eq_true, if_true, List.lookup_cons, ih]

theorem lookup_filter_self {β : Type} (l : List (Nat × β)) (g : Nat) : (l.filter (fun x => x.1 != g)).lookup g = none := by
  induction l with
  | nil => rfl
  | cons a l ih =>
    obtain ⟨x, y⟩ := a
    by_cases hx : x = g
    · subst hx; simp [List.filter_cons, ih]
    · have hb : (g == x) = false := by simpa using fun e => hx e.symm
      simp only [List.filter_cons, bne_iff_ne, ne_eq, hx, not_false_eq_true, if_true, List.lookup_cons, hb, ih]

theorem find_remove {s : FState} {f g : Nat} (h : f ≠ g) : (s.remove g).find f = s.find f := lookup_filter h

theorem find_cleanup {s : FState} {f st : Nat} (h : s.streams.lookup st ≠ some (some f)) : (s.cleanup st).find f = s.find f := by
  unfold FState.cleanup
  split
  · rfl
  · rename_i o ho
    dsimp only
    split
    · rename_i g
      exact find_remove (s := { s with streams := _ }) (by rintro rfl; exact h ho)
    · rfl

/-- The events that end a flow: its shutdown, and the end of a stream that has it. -/
def Ends (s : FState) (f : Nat) : FOp → Prop
  | .cleanup st => s.streams.lookup st = some (some f)
  | .shutdown g st => g = f ∨ s.streams.lookup st = some (some f)
  | _ => False

/-- A flow keeps its channel until then. -/
theorem stays {s : FState} {f c : Nat} (h : s.find f = some c) {op : FOp} (ho : ¬ Ends s f op) : (s.step op).find f = some c := by
  cases op with
  | request st hs =>
    simp only [FState.step]
    split
    · exact h
    · split
      · exact find_insert h
      · exact h
  | dgram d =>
    simp only [FState.step]
    split
    · rename_i g b _
      have h1 : FState.find { s.insert g with log := s.log ++ [(g, b.view.bytes)] } f = some c := find_insert h
      split
      · unfold FState.send
        split
        · split
          · exact h1
          · exact h1
        · exact h1
      · exact h1
    · exact h
  | cleanup st => show (s.cleanup st).find f = _; rw [find_cleanup ho, h]
  | shutdown g st =>
    simp only [Ends, not_or] at ho
    show ((s.cleanup st).remove g).find f = _
    rw [find_remove (Ne.symm ho.1), find_cleanup ho.2, h]
  | take k =>
    simp only [FState.step]
    split
    · split
      · exact h
      · exact h
    · exact h
  | hangup k =>
    simp only [FState.step]
    split
    · exact h
    · exact h

/-- And after that it has none. -/
theorem ends {s : FState} {f : Nat} {op : FOp} (ho : Ends s f op) : (s.step op).find f = none := by
  cases op with
  | cleanup st =>
    have ho : s.streams.lookup st = some (some f) := ho
    show (s.cleanup st).find f = none
    unfold FState.cleanup
    rw [ho]
    exact lookup_filter_self _ _
  | shutdown g st =>
    show ((s.cleanup st).remove g).find f = none
    rcases ho with rfl | ho
    · exact lookup_filter_self _ _
    · have ho : s.streams.lookup st = some (some f) := ho
      have h1 : (s.cleanup st).find f = none := by
        unfold FState.cleanup
        rw [ho]
        exact lookup_filter_self _ _
      by_cases hg : f = g
      · subst hg; exact lookup_filter_self _ _
      · rw [find_remove hg, h1]
  | _ => exact ho.elim

/-- Requests as RFC 9298 has them: an extended CONNECT on a stream of the client, or not for datagrams. -/
def Rfc : FOp → Prop
  | .request st hs => st % 4 = 0 ∧ (extractId st hs = some (st / 4) ∨ extractId st hs = none)
  | _ => True

/-- The application shuts down flows of streams with their streams. -/
def Tidy : FOp → Prop
  | .shutdown f st => st = 4 * f
  | _ => True

structure Own (s : FState) : Prop where
  own : ∀ st f, s.streams.lookup st = some (some f) → st = 4 * f ∧ (s.find f).isSome

theorem streams_insert (s : FState) (f : Nat) : (s.insert f).streams = s.streams := by unfold FState.insert; split <;> rfl

theorem streams_cleanup (s : FState) (st x : Nat) : (s.cleanup st).streams.lookup x = if x = st then none else s.streams.lookup x := by
  unfold FState.cleanup
  split
  · rename_i h
    split
    · rename_i e; rw [e, h]
    · rfl
  · dsimp only
    have : (s.streams.filter (fun y => y.1 != st)).lookup x = if x = st then none else s.streams.lookup x := by
      split
      · rename_i e; rw [e]; exact lookup_filter_self _ _
      · rename_i e; exact lookup_filter e
    split <;> exact this

theorem own_step {s : FState} (h : Own s) {op : FOp} (hr : Rfc op) (ht : Tidy op) : Own (s.step op) := by
  refine ⟨fun st f hl => ?_⟩
  by_cases hkeep : s.streams.lookup st = some (some f) ∧ ¬ Ends s f op
  · obtain ⟨h1, h2⟩ := h.own st f hkeep.1
    obtain ⟨c, hc⟩ := Option.isSome_iff_exists.mp h2
    exact ⟨h1, by rw [stays hc hkeep.2]; rfl⟩
  · cases op with
    | request x hs =>
      simp only [FState.step] at hl ⊢
      split at hl
      · exact absurd ⟨hl, id⟩ hkeep
      · rename_i hx
        rw [if_neg hx]
        by_cases hsx : st = x
        · subst hsx
          rcases hr.2 with he | he
          · rw [he] at hl ⊢
            dsimp only at hl ⊢
            rw [List.lookup_cons_self] at hl
            injection hl with hl
            injection hl with hl
            subst hl
            refine ⟨by have := hr.1; omega, ?_⟩
            show ((s.insert (st / 4)).find (st / 4)).isSome = true
            unfold FState.insert
            split
            · rename_i hh; rw [hh]; rfl
            · simp [FState.find]
          · rw [he] at hl
            dsimp only at hl
            rw [List.lookup_cons_self] at hl
            simp at hl
        · have hb : (st == x) = false := by simpa using hsx
          have : s.streams.lookup st = some (some f) := by
            split at hl <;> simpa only [List.lookup_cons, hb] using hl
          exact absurd ⟨this, id⟩ hkeep
    | dgram d =>
      have : (s.step (.dgram d)).streams = s.streams := by
        simp only [FState.step]
        split
        · split
          · unfold FState.send
            split
            · split <;> exact streams_insert _ _
            · exact streams_insert _ _
          · exact streams_insert _ _
        · rfl
      rw [this] at hl
      exact absurd ⟨hl, id⟩ hkeep
    | cleanup x =>
      have hl : (s.cleanup x).streams.lookup st = _ := hl
      rw [streams_cleanup] at hl
      split at hl
      · simp at hl
      · rename_i hne
        refine absurd ⟨hl, fun he => ?_⟩ hkeep
        exact hne ((h.own st f hl).1.trans (h.own x f he).1.symm)
    | shutdown g x =>
      have hl : (s.cleanup x).streams.lookup st = _ := hl
      rw [streams_cleanup] at hl
      split at hl
      · simp at hl
      · rename_i hne
        refine absurd ⟨hl, fun he => ?_⟩ hkeep
        have hx : x = 4 * g := ht
        rcases he with rfl | he
        · exact hne ((h.own st g hl).1.trans hx.symm)
        · exact hne ((h.own st f hl).1.trans (h.own x f he).1.symm)
    | take k =>
      have : (s.step (.take k)).streams = s.streams := by
        simp only [FState.step]
        split
        · split <;> rfl
        · rfl
      rw [this] at hl
      exact absurd ⟨hl, id⟩ hkeep
    | hangup k =>
      have : (s.step (.hangup k)).streams = s.streams := by
        simp only [FState.step]
        split <;> rfl
      rw [this] at hl
      exact absurd ⟨hl, id⟩ hkeep

/-- With such requests, a stream has its flow as long as it lasts. -/
theorem kept_partial (l : List FOp) (hr : ∀ op ∈ l, Rfc op ∧ Tidy op) {st f : Nat} (h : (FState.run {} l).streams.lookup st = some (some f)) :
    st = 4 * f ∧ ((FState.run {} l).find f).isSome := by
  have gen : ∀ (l : List FOp) (s : FState), Own s → (∀ op ∈ l, Rfc op ∧ Tidy op) → Own (s.run l) := by
    intro l
    induction l with
    | nil => exact fun s h _ => h
    | cons op l ih =>
      intro s h ho
      exact ih _ (own_step h (ho op (by simp)).1 (ho op (by simp)).2) (fun o h => ho o (by simp [h]))
  exact (gen l {} ⟨by simp⟩ hr).own st f h

/-- With numbers chosen by the client, two requests may share a flow, and the end of one takes it from the other. -/
theorem shared_false : ∃ l, (FState.run {} l).streams.lookup 4 = some (some 0) ∧ (FState.run {} l).find 0 = none :=
  ⟨[.request 0 [(str ":method", str "CONNECT"), (str ":protocol", str "connect-udp")], .request 4 [(str ":method", str "CONNECT-UDP"), (str "datagram-flow-id", str "0")],
    .cleanup 0], by decide +kernel, by decide +kernel⟩

/-- A datagram after the end of its stream makes a flow that nobody ends: the connection is never idle again. -/
theorem idle_false : ∃ l, (FState.run {} l).streams = [] ∧ (FState.run {} l).find 0 = some 1 ∧ (FState.run {} l).idle = false ∧
    ∀ st, ((FState.run {} l).step (.cleanup st)).idle = false :=
  ⟨[.request 0 [(str ":method", str "CONNECT"), (str ":protocol", str "connect-udp")], .dgram [0, 1], .cleanup 0, .dgram [0, 2]], by decide +kernel, by decide +kernel,
    by decide +kernel, by
      intro st
      have : (FState.run {} [.request 0 [(str ":method", str "CONNECT"), (str ":protocol", str "connect-udp")], .dgram [0, 1], .cleanup 0, .dgram [0, 2]]) =
          { flows := [(0, 1)], chans := [{ flow := 0, pending := [[1]] }, { flow := 0, pending := [[2]] }], log := [(0, [1]), (0, [2])] } := by decide +kernel
      rw [this]
      rfl⟩

/-! ### Which requests -/

/-- An extended CONNECT has the flow of its stream: its pseudo-headers are before all other headers, each at most once. -/
theorem extended {st : Nat} {hs rest : List (Bytes × Bytes)} {m p : Bytes}
    (hp : ∀ x ∈ hs, x.1 ≠ str "datagram-flow-id" ∧ (x.1 = str ":method" → x.2 = m) ∧ (x.1 = str ":protocol" → x.2 = p))
    (hm : ∃ x ∈ hs, x.1 = str ":method") (hq : ∃ x ∈ hs, x.1 = str ":protocol") :
    extractId st (hs ++ rest) = if m = str "CONNECT" then some (st / 4) else none := by
  have gen : ∀ (hs : List (Bytes × Bytes)) (f : Found), f.flow = none → (∀ v, f.method = some v → v = m) → (∀ v, f.protocol = some v → v = p) →
      (∀ x ∈ hs, x.1 ≠ str "datagram-flow-id" ∧ (x.1 = str ":method" → x.2 = m) ∧ (x.1 = str ":protocol" → x.2 = p)) →
      (f.method = none ∨ f.protocol = none) → (f.method = none → ∃ x ∈ hs, x.1 = str ":method") → (f.protocol = none → ∃ x ∈ hs, x.1 = str ":protocol") →
      scan (hs ++ rest) f = { method := some m, flow := none, protocol := some p } := by
    intro hs
    induction hs with
    | nil =>
      intro f _ _ _ _ h5 h6 h7
      rcases h5 with h | h
      · obtain ⟨x, hx, -⟩ := h6 h; simp at hx
      · obtain ⟨x, hx, -⟩ := h7 h; simp at hx
    | cons a hs ih =>
      obtain ⟨n, v⟩ := a
      intro f h1 h2 h3 h4 h5 h6 h7
      have ha := h4 (n, v) (by simp)
      have hmp : str ":method" ≠ str ":protocol" := by decide +kernel
      simp only [List.cons_append, scan]
      by_cases en : n = str ":method"
      · rw [if_pos en]
        have hv := ha.2.1 en
        simp only at hv
        cases hpf : f.protocol with
        | some w =>
          have := h3 w hpf
          subst this hv
          simp [h1, hpf]
        | none =>
          simp only [h1, hpf, Option.isSome_none, Bool.or_self, Bool.and_false, Bool.false_eq_true, if_false]
          refine ih _ rfl (by simp [hv]) (by simp) (fun x hx => h4 x (by simp [hx])) (by simp) (by simp) (fun _ => ?_)
          obtain ⟨x, hx, hx2⟩ := h7 hpf
          rcases List.mem_cons.mp hx with rfl | hx
          · exact absurd (en.symm.trans hx2) hmp
          · exact ⟨x, hx, hx2⟩
      · rw [if_neg en]
        by_cases ep : n = str ":protocol"
        · rw [if_pos ep]
          have hv := ha.2.2 ep
          simp only at hv
          cases hmf : f.method with
          | some w =>
            have := h2 w hmf
            subst this hv
            simp [h1, hmf]
          | none =>
            simp only [h1, hmf, Option.isSome_none, Bool.false_and, Bool.false_eq_true, if_false]
            refine ih _ rfl (by simp) (by simp [hv]) (fun x hx => h4 x (by simp [hx])) (by simp) (fun _ => ?_) (by simp)
            obtain ⟨x, hx, hx2⟩ := h6 hmf
            rcases List.mem_cons.mp hx with rfl | hx
            · exact absurd hx2 en
            · exact ⟨x, hx, hx2⟩
        · rw [if_neg ep, if_neg ha.1]
          have hno : (f.method.isSome && (f.flow.isSome || f.protocol.isSome)) = false := by
            rw [h1]
            rcases h5 with h | h <;> simp [h]
          rw [hno]
          refine ih f h1 h2 h3 (fun x hx => h4 x (by simp [hx])) h5 (fun h => ?_) (fun h => ?_)
          · obtain ⟨x, hx, hx2⟩ := h6 h
            rcases List.mem_cons.mp hx with rfl | hx
            · exact absurd hx2 en
            · exact ⟨x, hx, hx2⟩
          · obtain ⟨x, hx, hx2⟩ := h7 h
            rcases List.mem_cons.mp hx with rfl | hx
            · exact absurd hx2 ep
            · exact ⟨x, hx, hx2⟩
  unfold extractId
  rw [gen hs {} rfl (by simp) (by simp) hp (.inl rfl) (fun _ => hm) (fun _ => hq)]
  simp

/-- Anything else than CONNECT and CONNECT-UDP has none. -/
theorem others (st : Nat) (hs : List (Bytes × Bytes)) (h : ∀ x ∈ hs, x.1 = str ":method" → x.2 ≠ str "CONNECT" ∧ x.2 ≠ str "CONNECT-UDP") : extractId st hs = none := by
  have gen : ∀ (hs : List (Bytes × Bytes)) (f : Found), (∀ v, f.method = some v → v ≠ str "CONNECT" ∧ v ≠ str "CONNECT-UDP") →
      (∀ x ∈ hs, x.1 = str ":method" → x.2 ≠ str "CONNECT" ∧ x.2 ≠ str "CONNECT-UDP") →
      ∀ v, (scan hs f).method = some v → v ≠ str "CONNECT" ∧ v ≠ str "CONNECT-UDP" := by
    intro hs
    induction hs with
    | nil => exact fun f h _ => h
    | cons a hs ih =>
      obtain ⟨n, w⟩ := a
      intro f h1 h2
      have : ∀ v, (if n = str ":method" then { f with method := some w }
          else if n = str ":protocol" then { f with protocol := some w }
          else if n = str "datagram-flow-id" then { f with flow := parseU64 w }
          else f).method = some v → v ≠ str "CONNECT" ∧ v ≠ str "CONNECT-UDP" := by
        intro v hv
        split at hv
        · rename_i e
          simp only [Option.some.injEq] at hv
          subst hv
          exact h2 (n, w) (by simp) e
        · split at hv
          · exact h1 v hv
          · split at hv
            · exact h1 v hv
            · exact h1 v hv
      simp only [scan]
      generalize (if n = str ":method" then { f with method := some w }
          else if n = str ":protocol" then { f with protocol := some w }
          else if n = str "datagram-flow-id" then { f with flow := parseU64 w }
          else f) = g at this
      split
      · exact this
      · exact ih _ this (fun x hx => h2 x (by simp [hx]))
  have := gen hs {} (by simp) h
  unfold extractId
  dsimp only
  rw [if_neg, if_neg]
  · rintro ⟨h1, -⟩; exact (this _ h1).1 rfl
  · rintro ⟨h1, -⟩; exact (this _ h1).2 rfl

/-! ### Runs -/

example : addId 67 { data := [0, 0, 5], start := 2 } = .ok { data := [64, 67, 5], start := 0 } := by decide +kernel
example : addId 67 { data := [5] } = .ok { data := List.replicate 14 0 ++ [64, 67, 5], start := 14 } := by decide +kernel
example : removeId true (DBuf.fromSlice [0x40, 0, 1, 2]) = .ok (0, { data := [0x40, 0, 1, 2], start := 2 }) := by decide +kernel
example : removeId true (DBuf.fromSlice [0x40]) = .err := by decide +kernel

example : extractId 8 [(str ":method", str "CONNECT"), (str ":protocol", str "connect-udp")] = some 2 := by decide +kernel
example : extractId 8 [(str ":method", str "CONNECT-UDP"), (str "datagram-flow-id", str "+17")] = some 17 := by decide +kernel
example : extractId 8 [(str ":method", str "GET"), (str ":path", str "/")] = none := by decide +kernel

/-- Two flows, whose datagrams arrive mixed. -/
example : ((FState.run {} [.request 0 [(str ":method", str "CONNECT"), (str ":protocol", str "a")], .request 4 [(str ":method", str "CONNECT"), (str ":protocol", str "b")],
    .dgram [1, 10], .dgram [0, 20], .dgram [1, 11], .take 1]).chans) =
    [{ flow := 0, pending := [[20]] }, { flow := 1, pending := [[11]], taken := [[10]] }] := by decide +kernel

end Verif.Props.C156
