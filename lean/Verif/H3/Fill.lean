import Verif.H3.Run

/-! Reading from the transport: what the functions of `H3/Stream.lean` take from a stream. -/

namespace Verif.H3
open Verif

/-- Nothing has been read beyond what is there; after a reset all is read. -/
structure Rx.WF (r : Rx) : Prop where
  off : r.off ≤ r.all.length
  err : r.err.isSome = true → r.fin = true ∧ r.off = r.all.length
  gone : r.gone = true → r.fin = true ∧ r.off = r.all.length
  marker : r.marker = true → r.fin = true ∧ r.off = r.all.length

/-- Reading has taken `bs`. -/
structure Rd (r r' : Rx) (bs : Bytes) : Prop where
  all : r'.all = r.all
  err : r'.err = r.err
  fin : r'.fin = r.fin
  drain : r'.drain = r.drain
  off : r'.off = r.off + bs.length
  bytes : r.all.take r'.off = r.all.take r.off ++ bs
  broken : r.err.isSome = true → bs = []
  gone : r.gone = true → r'.gone = true
  wf : r'.WF

theorem Rd.refl {r : Rx} (h : r.WF) : Rd r r [] :=
  ⟨rfl, rfl, rfl, rfl, by simp, by simp, fun _ => rfl, id, h⟩

theorem Rd.trans {r r1 r2 : Rx} {a b : Bytes} (h : Rd r r1 a) (g : Rd r1 r2 b) : Rd r r2 (a ++ b) where
  all := by rw [g.all, h.all]
  err := by rw [g.err, h.err]
  fin := by rw [g.fin, h.fin]
  drain := by rw [g.drain, h.drain]
  off := by rw [g.off, h.off, List.length_append]; omega
  bytes := by
    have := g.bytes
    rw [h.all] at this
    rw [this, h.bytes, List.append_assoc]
  broken := fun e => by rw [h.broken e, g.broken (by rw [h.err]; exact e)]; rfl
  gone := fun e => g.gone (h.gone e)
  wf := g.wf

theorem finished_off {r : Rx} (h : r.WF) (hf : r.finished = true) : r.off = r.all.length := by
  unfold Rx.finished at hf
  simp only [Bool.or_eq_true, Bool.and_eq_true, beq_iff_eq] at hf
  rcases hf with hf | hf
  · exact (h.gone hf).2
  · exact hf.2

theorem finished_fin {r : Rx} (h : r.WF) (hf : r.finished = true) : r.fin = true := by
  unfold Rx.finished at hf
  simp only [Bool.or_eq_true, Bool.and_eq_true, beq_iff_eq] at hf
  rcases hf with hf | hf
  · exact (h.gone hf).1
  · exact hf.1

theorem collect_wf {r : Rx} (h : r.WF) : r.collect.WF := by
  unfold Rx.collect
  refine ⟨h.off, h.err, fun e => ?_, h.marker⟩
  simp only [Bool.or_eq_true, Bool.and_eq_true] at e
  rcases e with e | e
  · exact h.gone e
  · exact ⟨finished_fin (r := r) h e.1, finished_off (r := r) h e.1⟩

/-- `recv` takes the next bytes, as many as it returns. -/
theorem recv_ok {r r' : Rx} {n : Nat} {bs : Bytes} {fin : Bool} (h : r.WF)
    (e : r.recv n = (.ok (bs, fin), r')) :
    Rd r r' bs ∧ bs = r.avail.take n ∧ fin = ((r'.fin && r'.off == r'.all.length)) ∧
      r.err = none ∧ r.gone = false ∧ r.readable = true ∧ (n ≠ 0 → bs = [] → fin = false → False) := by
  unfold Rx.recv at e
  split at e
  · cases e
  rename_i hg
  split at e
  · cases e
  rename_i hr
  split at e
  · cases e
  rename_i herr
  have h1 : bs = r.avail.take n := by
    have := congrArg Prod.fst e; simp only [Except.ok.injEq, Prod.mk.injEq] at this; exact this.1.symm
  have h2 : fin = (r.take n).finished := by
    have := congrArg Prod.fst e; simp only [Except.ok.injEq, Prod.mk.injEq] at this; exact this.2.symm
  have h3 : r' = (r.take n).collect := by have := congrArg Prod.snd e; exact this.symm
  have hg : r.gone = false := by simpa using hg
  have hlen : bs.length = min n (r.all.length - r.off) := by
    rw [h1]; simp [Rx.avail]
  have hwf : (r.take n).WF := by
    refine ⟨?_, ?_, ?_, ?_⟩
    · show r.off + min n (r.all.length - r.off) ≤ r.all.length
      have := h.off; omega
    · intro c
      change r.err.isSome = true at c
      rw [herr] at c; cases c
    · intro c
      change r.gone = true at c
      rw [hg] at c; cases c
    · intro c
      change (r.marker && n == 0) = true at c
      simp only [Bool.and_eq_true, beq_iff_eq] at c
      have := h.marker c.1
      refine ⟨this.1, ?_⟩
      show r.off + min n (r.all.length - r.off) = r.all.length
      omega
  refine ⟨⟨?_, ?_, ?_, ?_, ?_, ?_, ?_, ?_, ?_⟩, h1, ?_, herr, hg, by simpa using hr, ?_⟩
  · rw [h3]; rfl
  · rw [h3]; rfl
  · rw [h3]; rfl
  · rw [h3]; rfl
  · rw [h3, hlen]; rfl
  · rw [h3]
    show r.all.take (r.off + min n (r.all.length - r.off)) = _
    rw [List.take_add, h1]
    congr 1
    unfold Rx.avail
    rw [← hlen, h1]
    unfold Rx.avail
    rw [List.length_take]
    rcases Nat.le_total n (r.all.drop r.off).length with c | c
    · rw [Nat.min_eq_left c]
    · rw [Nat.min_eq_right c, List.take_of_length_le (Nat.le_refl _), List.take_of_length_le c]
  · intro c; rw [herr] at c; cases c
  · intro c; rw [hg] at c; cases c
  · rw [h3]; exact collect_wf hwf
  · rw [h2, h3]
    unfold Rx.finished
    show ((r.take n).gone || _) = _
    have : (r.take n).gone = false := hg
    rw [this]
    rfl
  · intro hn hb hf
    rw [hb] at hlen
    have ha : r.off = r.all.length := by
      have := h.off
      simp only [List.length_nil] at hlen
      omega
    have hm : r.marker = true := by
      unfold Rx.readable at hr
      simp only [hg, Bool.not_false, Bool.true_and, ha, Nat.lt_irrefl, decide_false, Bool.false_or,
        Bool.not_eq_true', Bool.not_eq_false] at hr
      exact hr
    rw [h2] at hf
    unfold Rx.finished at hf
    have hfin : (r.take n).fin = true := (h.marker hm).1
    have hoff : (r.take n).off = (r.take n).all.length := by
      show r.off + min n (r.all.length - r.off) = r.all.length
      omega
    rw [hfin, hoff] at hf
    simp at hf

/-- Otherwise nothing is taken. -/
theorem recv_err {r r' : Rx} {n : Nat} {e : Err} (h : r.WF) (he : r.recv n = (.error e, r')) :
    Rd r r' [] ∧ (e = .done ∨ e = .transport ∧ r.gone = true ∨ ∃ x, e = .streamReset x ∧ r.err = some x) := by
  unfold Rx.recv at he
  split at he
  · rename_i hg
    cases he
    exact ⟨.refl h, .inr (.inl ⟨rfl, hg⟩)⟩
  split at he
  · cases he; exact ⟨.refl h, .inl rfl⟩
  split at he
  · rename_i x hx
    cases he
    have hwf : ({ r with marker := false } : Rx).WF := ⟨h.off, h.err, h.gone, (fun c => by cases c)⟩
    refine ⟨⟨rfl, rfl, rfl, rfl, rfl, by simp [Rx.collect], fun _ => rfl, ?_, collect_wf hwf⟩,
      .inr (.inr ⟨x, rfl, hx⟩)⟩
    intro c
    show (r.gone || _) = true
    rw [c]; rfl
  · cases he

/-- Equal but for what is not about the content read. -/
structure SameCore (s t : Strm) : Prop where
  ty : s.ty = t.ty
  state : s.state = t.state
  buf : s.buf = t.buf
  len : s.len = t.len
  off : s.off = t.off
  frameType : s.frameType = t.frameType
  isLocal : s.isLocal = t.isLocal
  remoteInit : s.remoteInit = t.remoteInit
  dataReceived : s.dataReceived = t.dataReceived
  trailersReceived : s.trailersReceived = t.trailersReceived
  maxHeaders : s.maxHeaders = t.maxHeaders
  maxPrio : s.maxPrio = t.maxPrio

theorem SameCore.refl (s : Strm) : SameCore s s :=
  ⟨rfl, rfl, rfl, rfl, rfl, rfl, rfl, rfl, rfl, rfl, rfl, rfl⟩

theorem SameCore.symm {s t : Strm} (h : SameCore s t) : SameCore t s :=
  ⟨h.1.symm, h.2.symm, h.3.symm, h.4.symm, h.5.symm, h.6.symm, h.7.symm, h.8.symm, h.9.symm,
    h.10.symm, h.11.symm, h.12.symm⟩

theorem SameCore.trans {s t u : Strm} (h : SameCore s t) (g : SameCore t u) : SameCore s u :=
  ⟨h.1.trans g.1, h.2.trans g.2, h.3.trans g.3, h.4.trans g.4, h.5.trans g.5, h.6.trans g.6,
    h.7.trans g.7, h.8.trans g.8, h.9.trans g.9, h.10.trans g.10, h.11.trans g.11, h.12.trans g.12⟩

theorem SameCore.rearm (s : Strm) : SameCore s.rearm s :=
  ⟨rfl, rfl, rfl, rfl, rfl, rfl, rfl, rfl, rfl, rfl, rfl, rfl⟩

theorem commit_commit (s : Strm) (a b : Bytes) : (s.commit a).commit b = s.commit (a ++ b) := by
  unfold Strm.commit
  simp [Nat.add_assoc]

theorem commit_nil (s : Strm) : s.commit [] = s := by
  unfold Strm.commit; simp

theorem SameCore.commit {s t : Strm} (h : SameCore s t) (bs : Bytes) :
    SameCore (s.commit bs) (t.commit bs) :=
  ⟨h.1, h.2, by unfold Strm.commit; rw [h.buf], h.4, by unfold Strm.commit; rw [h.off], h.6, h.7,
    h.8, h.9, h.10, h.11, h.12⟩

/-- What reading for a state may end with. -/
def FillErr (f : Fill) (r : Rx) : Prop :=
  f = .ok ∨ f = .closedCritical ∨ f = .err .done ∨ f = .err .transport ∧ r.gone = true ∨
    ∃ x, f = .err (.streamReset x) ∧ r.err = some x

theorem fillLoop_spec {spare : Nat → Nat → Nat} : ∀ {k : Nat} {s : Strm} {r : Rx} {f : Fill} {s' : Strm} {r' : Rx},
    r.WF → s.off < s.len → s.len - s.off < k → Strm.fillLoop spare k s r = (f, s', r') →
    ∃ bs, SameCore s' (s.commit bs) ∧ Rd r r' bs ∧ s.off + bs.length ≤ s.len ∧
      (f = .ok → s'.off = s'.len) ∧ FillErr f r' ∧
      (∀ e, f = .err e → s'.off < s'.len) := by
  intro k
  induction k with
  | zero => intro s r f s' r' _ _ h; omega
  | succ k ih =>
    intro s r f s' r' hwf hlt hk h
    unfold Strm.fillLoop at h
    have hu : 1 ≤ usable spare s.buf.length (s.len - s.off) ∧
        usable spare s.buf.length (s.len - s.off) ≤ s.len - s.off := by
      unfold usable
      have : 1 ≤ Nat.max 1 (spare s.buf.length (s.len - s.off)) := Nat.le_max_left _ _
      omega
    cases hr : r.recv (usable spare s.buf.length (s.len - s.off)) with
    | mk res r1 =>
      rw [hr] at h
      cases res with
      | ok v =>
        obtain ⟨bs, fin⟩ := v
        obtain ⟨hrd, hbs, _, _⟩ := recv_ok hwf hr
        have hlen : bs.length ≤ s.len - s.off := by
          rw [hbs, List.length_take]; omega
        dsimp only at h
        split at h
        · cases h
          exact ⟨bs, .refl _, hrd, by omega, (by intro c; cases c), .inr (.inl rfl),
            (by intro e c; cases c)⟩
        split at h
        · split at h
          · rename_i hc
            cases h
            exact ⟨bs, .refl _, hrd, by omega, fun _ => by simpa [Strm.complete] using hc, .inl rfl,
              (by intro e c; cases c)⟩
          · rename_i hc
            cases h
            have hc : ¬ s.off + bs.length = s.len := by simpa [Strm.complete, Strm.commit] using hc
            exact ⟨bs, .rearm _, hrd, by omega, (by intro c; cases c), .inr (.inr (.inl rfl)),
              fun e _ => (by show s.off + bs.length < s.len; omega)⟩
        split at h
        · rename_i hc
          cases h
          exact ⟨bs, .refl _, hrd, by omega, fun _ => by simpa [Strm.complete] using hc, .inl rfl,
            (by intro e c; cases c)⟩
        · rename_i h1 h2 h3
          have hc : ¬ s.off + bs.length = s.len := by simpa [Strm.complete, Strm.commit] using h3
          have hlt' : (s.commit bs).off < (s.commit bs).len := by
            show s.off + bs.length < s.len; omega
          have hk' : (s.commit bs).len - (s.commit bs).off < k := by
            show s.len - (s.off + bs.length) < k; omega
          obtain ⟨cs, g1, g2, g3, g4, g5⟩ := ih hrd.wf hlt' hk' h
          refine ⟨bs ++ cs, by rw [← commit_commit]; exact g1, hrd.trans g2, ?_, g4, g5⟩
          rw [List.length_append]
          change s.off + bs.length + cs.length ≤ s.len at g3
          omega
      | error e =>
        obtain ⟨hrd, he⟩ := recv_err hwf hr
        rcases he with he | ⟨he, hg⟩ | ⟨x, he, hx⟩
        · subst he
          cases h
          exact ⟨[], by rw [commit_nil]; exact .rearm _, hrd, by simp; omega, (by intro c; cases c),
            .inr (.inr (.inl rfl)), fun e _ => hlt⟩
        · subst he
          cases h
          exact ⟨[], by rw [commit_nil]; exact .refl _, hrd, by simp; omega, (by intro c; cases c),
            .inr (.inr (.inr (.inl ⟨rfl, hrd.gone hg⟩))), fun e _ => hlt⟩
        · subst he
          dsimp only at h
          split at h
          · cases h
            exact ⟨[], by rw [commit_nil]; exact .refl _, hrd, by simp; omega, (by intro c; cases c),
              .inr (.inl rfl), (by intro e c; cases c)⟩
          · cases h
            exact ⟨[], by rw [commit_nil]; exact .refl _, hrd, by simp; omega, (by intro c; cases c),
              .inr (.inr (.inr (.inr ⟨x, rfl, by rw [hrd.err]; exact hx⟩))), fun e _ => hlt⟩

/-- `try_fill_buffer` reads at most what the state needs, and all of it if it succeeds. -/
theorem tryFill_spec {spare : Nat → Nat → Nat} {s : Strm} {r : Rx} {f : Fill} {s' : Strm} {r' : Rx}
    (hwf : r.WF) (hle : s.off ≤ s.len) (h : s.tryFill spare r = (f, s', r')) :
    ∃ bs, SameCore s' (s.commit bs) ∧ Rd r r' bs ∧ s.off + bs.length ≤ s.len ∧
      (f = .ok → s'.off = s'.len) ∧ FillErr f r' ∧
      (∀ e, f = .err e → s'.off < s'.len) := by
  unfold Strm.tryFill at h
  split at h
  · rename_i hc
    cases h
    exact ⟨[], by rw [commit_nil]; exact .refl _, .refl hwf, by simpa using hle,
      fun _ => by simpa [Strm.complete] using hc, .inl rfl, (by intro e c; cases c)⟩
  · rename_i hc
    have : ¬ s.off = s.len := by simpa [Strm.complete] using hc
    exact fillLoop_spec hwf (by omega) (by omega) h

/-- `try_skip_data` counts what it reads. -/
theorem trySkip_spec {s : Strm} {r : Rx} {f : Fill} {s' : Strm} {r' : Rx}
    (hwf : r.WF) (hle : s.off ≤ s.len) (h : s.trySkipData r = (f, s', r')) :
    ∃ bs : Bytes, Rd r r' bs ∧ s.off + bs.length ≤ s.len ∧ FillErr f r' ∧
      (f ≠ .closedCritical → SameCore s' { s with off := s.off + bs.length }) ∧
      (f = .closedCritical → SameCore s' s) ∧ (f = .ok → s'.off = s'.len) := by
  unfold Strm.trySkipData at h
  split at h
  · rename_i hc
    cases h
    exact ⟨[], .refl hwf, by simpa using hle, .inl rfl, fun _ => .refl _, (fun c => by cases c),
      fun _ => by simpa [Strm.complete] using hc⟩
  · cases hr : r.recv (s.len - s.off) with
    | mk res r1 =>
      rw [hr] at h
      cases res with
      | ok v =>
        obtain ⟨bs, fin⟩ := v
        obtain ⟨hrd, hbs, _, _⟩ := recv_ok hwf hr
        have hlen : bs.length ≤ s.len - s.off := by
          rw [hbs, List.length_take]; omega
        dsimp only at h
        split at h
        · cases h
          exact ⟨bs, hrd, by omega, .inr (.inl rfl), fun c => absurd rfl c, fun _ => .refl _,
            (fun c => by cases c)⟩
        split at h
        · rename_i hc
          cases h
          exact ⟨bs, hrd, by omega, .inl rfl, fun _ => .refl _, (fun c => by cases c),
            fun _ => by simpa using hc⟩
        · cases h
          exact ⟨bs, hrd, by omega, .inr (.inr (.inl rfl)), fun _ => .rearm _, (fun c => by cases c),
            (fun c => by cases c)⟩
      | error e =>
        obtain ⟨hrd, he⟩ := recv_err hwf hr
        rcases he with he | ⟨he, hg⟩ | ⟨x, he, hx⟩
        · subst he
          cases h
          exact ⟨[], hrd, by simpa using hle, .inr (.inr (.inl rfl)), fun _ => .rearm _,
            (fun c => by cases c), (fun c => by cases c)⟩
        · subst he
          cases h
          exact ⟨[], hrd, by simpa using hle, .inr (.inr (.inr (.inl ⟨rfl, hrd.gone hg⟩))),
            fun _ => .refl _, (fun c => by cases c), (fun c => by cases c)⟩
        · subst he
          dsimp only at h
          split at h
          · cases h
            exact ⟨[], hrd, by simpa using hle, .inr (.inl rfl), fun _ => .refl _,
              fun _ => .refl _, (fun c => by cases c)⟩
          · cases h
            exact ⟨[], hrd, by simpa using hle,
              .inr (.inr (.inr (.inr ⟨x, rfl, by rw [hrd.err]; exact hx⟩))), fun _ => .refl _,
              (fun c => by cases c), (fun c => by cases c)⟩

end Verif.H3
