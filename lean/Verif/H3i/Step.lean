import Verif.H3i.Inv
import Verif.H3.Format

/-! One call of the parser of h3i (for the proofs of C177). -/

namespace Verif.H3i
open Verif

/-- After the end of the stream has been read and not been reported. -/
def ToldOk (s : Src) (p : P) (h : Bytes) : Prop :=
  s.told = true → s.fin = true ∧ s.avail = [] ∧ h ≠ [] ∧ (p.mode = .val → p.off = 0 ∨ p.off = p.slen)

/-- What one round, or one call, may come to; `d` are the bytes read. -/
inductive Post (p : P) (s : Src) (h : Bytes) (p' : P) (s' : Src) : Option Out → Prop where
  | reset (e : Nat) : p'.buf.length ≤ maxState → Post p s h p' s' (some (.interruptedReset e))
  | again (d : Bytes) : s.avail = d ++ s'.avail → s'.fin = s.fin → Held p' (h ++ d) → ToldOk s' p' (h ++ d) →
      (p.mode = .type ∧ p'.mode = .len ∨ p.mode = .len ∧ p'.mode = .val) → Post p s h p' s' none
  | frame (d : Bytes) (ty : Nat) (pl : Bytes) (fin : Bool) : s.avail = d ++ s'.avail → s'.fin = s.fin →
      Wire (ty, pl) (h ++ d) → p' = { } → (fin = true ↔ s.fin = true ∧ s'.avail = []) →
      (fin = false → s'.told = false) → Post p s h p' s' (some (.frame ty pl fin))
  | ended (d : Bytes) : s.avail = d ++ s'.avail → s'.fin = s.fin → s.fin = true → s'.avail = [] →
      NoFrame (h ++ d) → p'.buf.length ≤ maxState → Post p s h p' s' (some .interruptedFin)
  | done (d : Bytes) : s.avail = d ++ s'.avail → s'.fin = s.fin → Held p' (h ++ d) → ToldOk s' p' (h ++ d) →
      p'.off ≠ p'.slen → s'.avail = [] → (s.fin = true → s'.told = true) → Post p s h p' s' (some .done)
  | retry (d : Bytes) : s.avail = d ++ s'.avail → s'.fin = s.fin → Held p' (h ++ d) → ToldOk s' p' (h ++ d) →
      p'.off ≠ p'.slen → d ≠ [] → Post p s h p' s' (some .retry)
  | excessive (d : Bytes) (t n : Nat) (a b : Bytes) : s.avail = d ++ s'.avail → s'.fin = s.fin →
      Held p' (h ++ d) → ToldOk s' p' (h ++ d) → IsVarint t a → IsVarint n b → 2000000 < n → h ++ d = a ++ b →
      Post p s h p' s' (some .excessive)
  | bad (d : Bytes) (ty : Nat) (pl : Bytes) (e : H3.Err) : s.avail = d ++ s'.avail → s'.fin = s.fin →
      Held p' (h ++ d) → ToldOk s' p' (h ++ d) → Wire (ty, pl) (h ++ d) →
      H3.fromBytes ty pl.length pl = .error e → Post p s h p' s' (some .bad)
  | panic (d : Bytes) (pl : Bytes) (e : Qpack.Err) : s.avail = d ++ s'.avail → s'.fin = s.fin →
      Wire (1, pl) (h ++ d) → Qpack.decode pl (2 ^ 64 - 1) = .error e → p'.buf.length ≤ maxState → Post p s h p' s' (some .panic)

theorem build_spec (ty : Nat) (pl : Bytes) :
    (build ty pl.length pl = none ∧ ∃ f, H3.fromBytes ty pl.length pl = .ok f) ∨
    (build ty pl.length pl = some .bad ∧ ∃ e, H3.fromBytes ty pl.length pl = .error e) ∨
    (build ty pl.length pl = some .panic ∧ ty = 1 ∧ ∃ e, Qpack.decode pl (2 ^ 64 - 1) = .error e) := by
  unfold build
  rcases hf : H3.fromBytes ty pl.length pl with e | f
  · right; left
    have := H3.fromBytes_err hf
    rcases this with rfl | ⟨_, rfl | rfl⟩ <;> simp
  · cases f with
    | headers b =>
      have hty : ty = 1 := by
        have := (H3.fromBytes_sound hf).1
        simpa [H3.Frame.code] using this.symm
      have hb : b = pl := by
        subst hty
        have hc := H3.fromBytes_complete (H3.Denotes.headers pl) (bs := pl) (by simp [Spells, Field.Spells])
        simp [H3.Frame.code, hf] at hc
        exact hc
      subst hb
      simp only
      rcases hq : Qpack.decode b (2 ^ 64 - 1) with e | l
      · right; right; exact ⟨by simp, hty, e, rfl⟩
      · left; exact ⟨by simp, _, rfl⟩
    | _ => left; exact ⟨by simp, _, rfl⟩

theorem transition_spec {p p' : P} {m : Mode} {n : Nat} (h : p.transition m n = some p') :
    n ≤ maxState ∧ p' = { p with buf := resize p.buf n, mode := m, off := 0, slen := n } := by
  unfold P.transition at h
  split at h
  · cases h
  · simp only [Option.some.injEq] at h
    exact ⟨by omega, h.symm⟩

/-- The bytes held are not none once something has been read. -/
theorem held_ne {V : P → Prop} {p : P} {h : Bytes} (hh : HeldW V p h) (hn : ¬ (p.mode = .type ∧ p.off = 0)) : h ≠ [] := by
  intro he
  obtain ⟨g, hg, hp⟩ := hh.parts
  rw [he] at hp
  have := (List.append_eq_nil_iff.mp hp.symm)
  unfold Before at hg
  cases hm : p.mode with
  | type =>
    have hl := congrArg List.length this.2
    simp at hl
    have h1 := hh.len
    have h2 := hh.off
    rcases hl with hl | hl
    · exact hn ⟨hm, hl⟩
    · rw [hl] at h1
      simp at h1
      exact hn ⟨hm, by omega⟩
  | len =>
    rw [hm] at hg
    obtain ⟨t, _, ht⟩ := hg
    exact (isVarint_head ht).1 this.1
  | val =>
    rw [hm] at hg
    obtain ⟨t, n, a, b, _, _, ht, _, _, hab⟩ := hg
    rw [hab] at this
    exact (isVarint_head ht).1 (List.append_eq_nil_iff.mp this.1).1

/-- After a read that did not end the parsing: was the end of the stream seen, the buffer is full. -/
theorem fill_told {p p1 : P} {s s1 : Src} {h b : Bytes} {fin : Bool} (hh : Held p h) (ht : ToldOk s p h)
    (hf : p.fill s = (p1, s1, .data b fin)) (hc : ¬ (fin && p1.incomplete) = true) :
    s1.told = true → fin = true ∧ p1.off = p1.slen ∧ s1.fin = true ∧ s1.avail = [] := by
  intro htold
  obtain ⟨f1, f2, f3, f4, f5, f6, f7, f8, f9, f10, f11⟩ := fill_spec hh hf
  by_cases hcomp : p.off = p.slen
  · obtain ⟨rfl, rfl, rfl⟩ := f8 hcomp
    obtain ⟨a, b, _, _⟩ := ht htold
    exact ⟨f5.mpr ⟨a, b⟩, hcomp, a, b⟩
  · have : s.told = true ∨ fin = true := by
      have := f11 hcomp; rw [this] at htold; simpa using htold
    have hfin : fin = true := by
      rcases this with h1 | h1
      · obtain ⟨a, b', _, _⟩ := ht h1
        apply f5.mpr
        refine ⟨a, ?_⟩
        rw [b'] at f2
        exact (List.append_eq_nil_iff.mp f2.symm).2
      · exact h1
    refine ⟨hfin, ?_, ?_, (f5.mp hfin).2⟩
    · have hi : p1.incomplete = false := by
        rw [hfin] at hc; simpa using hc
      unfold P.incomplete at hi
      simp only [Bool.and_eq_false_iff, Bool.not_eq_false', P.complete, decide_eq_true_eq] at hi
      rcases hi with hi | hi
      · have := f1.len
        have h2 := f1.off
        simp at hi
        rw [hi] at this
        simp at this
        omega
      · exact hi
    · rw [f4]; exact (f5.mp hfin).1

/-- A round that ends in the middle of an integer has read something. -/
theorem fill_reads {p p1 p2 : P} {s s1 : Src} {h b : Bytes} {fin : Bool} (hh : Held p h)
    (hf : p.fill s = (p1, s1, .data b fin)) (hc : ¬ (fin && p1.incomplete) = true) (hm : p1.mode ≠ .val)
    (hv : p1.varint = (p2, none)) : b ≠ [] := by
  intro hb
  obtain ⟨f1, f2, f3, f4, f5, f6, f7, f8, f9, f10, f11⟩ := fill_spec hh hf
  obtain ⟨v1, v2, v3, v4, v5, v6, v7⟩ := varint_spec f1 hm hv
  by_cases hcomp : p.off = p.slen
  · obtain ⟨rfl, _, _⟩ := f8 hcomp
    have hs : p2.slen = p1.slen := by
      have hvar := hh.var hm
      unfold VarOk at hvar
      unfold P.varint at hv
      simp only at hv
      by_cases h1 : p1.off = 1
      · rw [if_pos h1] at hv
        have hpl : varintParseLen (p1.buf.headD 0) = p1.slen := by omega
        split at hv
        · split at hv <;> simp at hv
          rw [← hv]; simpa using hpl
        · simp only [Prod.mk.injEq, and_true] at hv
          rw [← hv]; exact hpl
      · rw [if_neg h1] at hv
        split at hv
        · split at hv <;> simp at hv
          rw [← hv]
        · simp only [Prod.mk.injEq, and_true] at hv
          rw [← hv]
    exact v7 rfl (by omega)
  · have hin : p1.off ≠ p1.slen := by
      have h1 : p1.off = p.off := by rw [f10, hb]; simp
      have h2 : p1.slen = p.slen := by
        unfold P.fill at hf
        rw [if_neg (by simpa [P.complete] using hcomp)] at hf
        rcases hr : s.recv (p.slen - p.off) with ⟨s2, g⟩
        rw [hr] at hf
        cases g with
        | data b' fin' => simp only [Prod.mk.injEq] at hf; rw [← hf.1]
        | done => simp at hf
        | reset c => simp at hf
      omega
    have hav : s1.avail = [] := by
      rcases f7 with hx | hx
      · exact absurd hx hin
      · exact hx.1
    have hav0 : s.avail = [] := by rw [f2, hb, hav]; rfl
    have hfin : fin = true := by
      unfold P.fill at hf
      rw [if_neg (by simpa [P.complete] using hcomp)] at hf
      rcases hr : s.recv (p.slen - p.off) with ⟨s2, g⟩
      rw [hr] at hf
      cases g with
      | data b' fin' =>
        unfold Src.recv at hr
        split at hr
        · simp at hr
        · split at hr
          · simp at hr
          next hx =>
            simp only [hav0, true_and, not_or] at hx
            apply f5.mpr
            exact ⟨by simpa using hx.1, hav⟩
      | done => simp at hf
      | reset c => simp at hf
    apply hc
    rw [hfin]
    have hne : p1.buf ≠ [] := by
      intro hx
      have := f1.len
      rw [hx] at this
      simp at this
      have := f1.off
      omega
    simp [P.incomplete, P.complete, hne, hin]

theorem once_spec {p p' : P} {s s' : Src} {h : Bytes} {o : Option Out} (hh : Held p h) (ht : ToldOk s p h)
    (e : p.once s = (p', s', o)) : Post p s h p' s' o := by
  unfold P.once at e
  rcases hf : p.fill s with ⟨p1, s1, g⟩
  rw [hf] at e
  cases g with
  | reset c =>
    simp only [Prod.mk.injEq] at e
    obtain ⟨rfl, rfl, rfl⟩ := e
    have hpp : p1 = p := by
      unfold P.fill at hf
      split at hf
      · simp at hf
      · rcases hr : s.recv (p.slen - p.off) with ⟨s2, g⟩
        rw [hr] at hf
        cases g with
        | data b fin => simp at hf
        | done => simp at hf
        | reset c2 => simp only [Prod.mk.injEq] at hf; exact hf.1.symm
    exact Post.reset c (by rw [hpp, hh.len]; exact hh.size)
  | done =>
    simp only [Prod.mk.injEq] at e
    obtain ⟨rfl, rfl, rfl⟩ := e
    unfold P.fill at hf
    split at hf
    · simp at hf
    next hc =>
      have hc' : p.off ≠ p.slen := by simpa [P.complete] using hc
      rcases hr : s.recv (p.slen - p.off) with ⟨s2, g⟩
      rw [hr] at hf
      cases g with
      | data b fin => simp at hf
      | reset c => simp at hf
      | done =>
        simp only [Prod.mk.injEq, and_true] at hf
        obtain ⟨rfl, rfl⟩ := hf
        obtain ⟨rfl, r2, r3, r4⟩ := recv_done hr
        exact Post.done [] (by simp) rfl (by simpa using hh) (by simpa using ht) hc' r2 r3
  | data b fin =>
    simp only at e
    obtain ⟨f1, f2, f3, f4, f5, f6, f7, f8, f9, f10, f11⟩ := fill_spec hh hf
    split at e
    next hc =>
      simp only [Prod.mk.injEq] at e
      obtain ⟨rfl, rfl, rfl⟩ := e
      simp only [Bool.and_eq_true] at hc
      have hin : p1.off ≠ p1.slen := by
        have := hc.2
        unfold P.incomplete at this
        simp [P.complete] at this
        exact this.2
      have hheld : Held p1 (h ++ b) := by
        refine ⟨f1.len, f1.off, f1.size, ?_, f1.parts⟩
        intro hm
        rcases f1.var hm with k | k
        · exact absurd (k.1.trans k.2.symm) hin
        · exact k
      exact Post.ended b f2 f4 (f5.mp hc.1).1 (f5.mp hc.1).2 (held_noFrame hheld hin) (by rw [f1.len]; exact f1.size)
    next hc =>
      have htd := fill_told hh ht hf hc
      cases hm : p1.mode with
      | type =>
        rw [hm] at e
        simp only at e
        rcases hv : p1.varint with ⟨p2, r⟩
        rw [hv] at e
        obtain ⟨v1, v2, v3, v4, v5, v6, v7⟩ := varint_spec f1 (by rw [hm]; simp) hv
        have htold2 : ToldOk s1 p2 (h ++ b) := by
          intro hx
          obtain ⟨t1, t2, t3, t4⟩ := htd hx
          refine ⟨t3, t4, ?_, by rw [v2, hm]; simp⟩
          apply held_ne f1
          rintro ⟨_, h0⟩
          have := f1.var (by rw [hm]; simp)
          unfold VarRead VarOk at this
          omega
        cases r with
        | none =>
          simp only [Prod.mk.injEq] at e
          obtain ⟨rfl, rfl, rfl⟩ := e
          exact Post.retry b f2 f4 v1 htold2 (v7 rfl) (fill_reads hh hf hc (by rw [hm]; simp) hv)
        | some v =>
          obtain ⟨w1, w2⟩ := v6 v rfl
          simp only at e
          rcases htr : ({ p2 with ty := some v } : P).transition .len 1 with _ | p3
          · exfalso
            unfold P.transition at htr
            simp [maxState] at htr
          · rw [htr] at e
            simp only [Prod.mk.injEq] at e
            obtain ⟨rfl, rfl, rfl⟩ := e
            obtain ⟨_, rfl⟩ := transition_spec htr
            obtain ⟨g, g1, g2⟩ := v1.parts
            have hgg : h ++ b = p2.buf := by
              unfold Before at g1
              rw [v2, hm] at g1
              simp only at g1
              rw [g2, g1, List.nil_append, w1, ← v1.len, List.take_length]
            refine Post.again b f2 f4 ⟨resize_length _ _, by simp, by simp [maxState], fun _ => Or.inl ⟨rfl, rfl⟩, ?_⟩ ?_ ?_
            · exact ⟨h ++ b, ⟨v, rfl, by rw [hgg]; exact w2⟩, by simp⟩
            · intro hx
              obtain ⟨x1, x2, x3, _⟩ := htold2 hx
              exact ⟨x1, x2, x3, by simp⟩
            · left; exact ⟨by rw [← f3, hm], rfl⟩
      | len =>
        rw [hm] at e
        simp only at e
        rcases hv : p1.varint with ⟨p2, r⟩
        rw [hv] at e
        obtain ⟨v1, v2, v3, v4, v5, v6, v7⟩ := varint_spec f1 (by rw [hm]; simp) hv
        have htold2 : ToldOk s1 p2 (h ++ b) := by
          intro hx
          obtain ⟨t1, t2, t3, t4⟩ := htd hx
          exact ⟨t3, t4, held_ne f1 (by rw [hm]; simp), by rw [v2, hm]; simp⟩
        cases r with
        | none =>
          simp only [Prod.mk.injEq] at e
          obtain ⟨rfl, rfl, rfl⟩ := e
          exact Post.retry b f2 f4 v1 htold2 (v7 rfl) (fill_reads hh hf hc (by rw [hm]; simp) hv)
        | some v =>
          obtain ⟨w1, w2⟩ := v6 v rfl
          simp only at e
          obtain ⟨g, g1, g2⟩ := v1.parts
          have hb2 : p2.buf.take p2.off = p2.buf := by rw [w1, ← v1.len, List.take_length]
          rw [hb2] at g2
          have hmode2 : p2.mode = .len := by rw [v2, hm]
          have g1' := g1
          unfold Before at g1'
          rw [hmode2] at g1'
          obtain ⟨t, q1, q2⟩ := g1'
          rcases htr : ({ p2 with len := some v } : P).transition .val v with _ | p3
          · rw [htr] at e
            simp only [Prod.mk.injEq] at e
            obtain ⟨rfl, rfl, rfl⟩ := e
            unfold P.transition at htr
            have hbig : v > maxState := by
              by_cases hx : v > maxState
              · exact hx
              · rw [if_neg hx] at htr; simp at htr
            refine Post.excessive b t v g p2.buf f2 f4 ⟨v1.len, v1.off, v1.size, v1.var, ?_⟩ htold2 q2 w2 hbig g2
            refine ⟨g, ?_, by simp only; rw [hb2]; exact g2⟩
            unfold Before
            simp only [hmode2]
            exact ⟨t, q1, q2⟩
          · rw [htr] at e
            simp only [Prod.mk.injEq] at e
            obtain ⟨rfl, rfl, rfl⟩ := e
            obtain ⟨hs, rfl⟩ := transition_spec htr
            refine Post.again b f2 f4 ⟨resize_length _ _, by simp, hs, by simp, ?_⟩ ?_ ?_
            · exact ⟨h ++ b, ⟨t, v, g, p2.buf, q1, rfl, q2, w2, rfl, g2⟩, by simp⟩
            · intro hx
              obtain ⟨x1, x2, x3, _⟩ := htold2 hx
              exact ⟨x1, x2, x3, fun _ => Or.inl rfl⟩
            · right; exact ⟨by rw [← f3, hm], rfl⟩
      | val =>
        rw [hm] at e
        simp only at e
        have hheld : Held p1 (h ++ b) := ⟨f1.len, f1.off, f1.size, fun hx => absurd hm hx, f1.parts⟩
        have htold1 : ToldOk s1 p1 (h ++ b) := by
          intro hx
          obtain ⟨t1, t2, t3, t4⟩ := htd hx
          exact ⟨t3, t4, held_ne f1 (by rw [hm]; simp), fun _ => Or.inr t2⟩
        split at e
        next hcm =>
          have hcm' : p1.off = p1.slen := by simpa [P.complete] using hcm
          obtain ⟨g, g1, g2⟩ := f1.parts
          have hb1 : p1.buf.take p1.off = p1.buf := by rw [hcm', ← f1.len, List.take_length]
          rw [hb1] at g2
          unfold Before at g1
          rw [hm] at g1
          obtain ⟨t, n, a, c, q1, q2, q3, q4, q5, q6⟩ := g1
          have hlen1 : p1.buf.length = n := by rw [f1.len, q5]
          have hwire : Wire (t, p1.buf) (h ++ b) := ⟨a, c, q3, by rw [hlen1]; exact q4, by rw [g2, q6]⟩
          rw [q1, q2] at e
          simp only at e
          rw [← hlen1] at e
          rcases build_spec t p1.buf with ⟨hb, f, hf'⟩ | ⟨hb, er, hf'⟩ | ⟨hb, hty, er, hf'⟩
          · rw [hb] at e
            simp only [Prod.mk.injEq] at e
            obtain ⟨rfl, rfl, rfl⟩ := e
            refine Post.frame b t p1.buf fin f2 f4 hwire rfl f5 ?_
            intro hfin
            by_cases hx : s1.told = true
            · have := (htd hx).1; rw [hfin] at this; simp at this
            · simpa using hx
          · rw [hb] at e
            simp only [Prod.mk.injEq] at e
            obtain ⟨rfl, rfl, rfl⟩ := e
            exact Post.bad b t p1.buf er f2 f4 hheld htold1 hwire hf'
          · rw [hb] at e
            simp only [Prod.mk.injEq] at e
            obtain ⟨rfl, rfl, rfl⟩ := e
            exact Post.panic b p1.buf er f2 f4 (by rw [← hty]; exact hwire) hf' (by rw [f1.len]; exact f1.size)
        next hcm =>
          have hcm' : p1.off ≠ p1.slen := by simpa [P.complete] using hcm
          simp only [Prod.mk.injEq] at e
          obtain ⟨rfl, rfl, rfl⟩ := e
          have hav : s1.avail = [] := by
            rcases f7 with hx | hx
            · exact absurd hx hcm'
            · exact hx.1
          refine Post.done b f2 f4 hheld htold1 hcm' hav ?_
          intro hfin
          exfalso
          have hff : fin = true := f5.mpr ⟨hfin, hav⟩
          apply hc
          rw [hff]
          simp only [Bool.true_and, P.incomplete, P.complete]
          have hne : p1.buf ≠ [] := by
            intro hx
            have := f1.len
            rw [hx] at this
            simp at this
            have := f1.off
            omega
          simp [hne, hcm']

/-- Two rounds. -/
theorem Post.seq {p p1 p' : P} {s s1 s' : Src} {h : Bytes} {o : Option Out} (d : Bytes) (hd : s.avail = d ++ s1.avail)
    (hf : s1.fin = s.fin) (ho : o ≠ none) (h2 : Post p1 s1 (h ++ d) p' s' o) : Post p s h p' s' o := by
  have av : ∀ {e : Bytes}, s1.avail = e ++ s'.avail → s.avail = (d ++ e) ++ s'.avail := by
    intro e he; rw [hd, he]; simp
  cases h2 with
  | reset e a1 => exact Post.reset e a1
  | again => exact absurd rfl ho
  | frame e ty pl fin a1 a2 a3 a4 a5 a6 =>
    exact Post.frame (d ++ e) ty pl fin (av a1) (a2.trans hf) (by simpa using a3) a4 (by rw [← hf]; exact a5) a6
  | ended e a1 a2 a3 a4 a5 a6 =>
    exact Post.ended (d ++ e) (av a1) (a2.trans hf) (by rw [← hf]; exact a3) a4 (by simpa using a5) a6
  | done e a1 a2 a3 a4 a5 a6 a7 =>
    exact Post.done (d ++ e) (av a1) (a2.trans hf) (by simpa using a3) (by simpa using a4) a5 a6 (by rw [← hf]; exact a7)
  | retry e a1 a2 a3 a4 a5 a6 =>
    exact Post.retry (d ++ e) (av a1) (a2.trans hf) (by simpa using a3) (by simpa using a4) a5
      (by intro hx; exact a6 (List.append_eq_nil_iff.mp hx).2)
  | excessive e t n a b a1 a2 a3 a4 a5 a6 a7 a8 =>
    exact Post.excessive (d ++ e) t n a b (av a1) (a2.trans hf) (by simpa using a3) (by simpa using a4) a5 a6 a7
      (by simpa using a8)
  | bad e ty pl er a1 a2 a3 a4 a5 a6 =>
    exact Post.bad (d ++ e) ty pl er (av a1) (a2.trans hf) (by simpa using a3) (by simpa using a4) (by simpa using a5) a6
  | panic e pl er a1 a2 a3 a4 a5 =>
    exact Post.panic (d ++ e) pl er (av a1) (a2.trans hf) (by simpa using a3) a4 a5

theorem tryParse_spec {p p' : P} {s s' : Src} {h : Bytes} {o : Out} (hh : Held p h) (ht : ToldOk s p h)
    (e : p.tryParse s = (p', s', o)) : Post p s h p' s' (some o) := by
  unfold P.tryParse at e
  rcases h1 : p.once s with ⟨p1, s1, o1⟩
  rw [h1] at e
  have k1 := once_spec hh ht h1
  cases o1 with
  | some o1 =>
    simp only [Prod.mk.injEq] at e
    obtain ⟨rfl, rfl, rfl⟩ := e
    exact k1
  | none =>
    cases k1 with
    | again d a1 a2 a3 a4 a5 =>
      simp only at e
      rcases h2 : p1.once s1 with ⟨p2, s2, o2⟩
      rw [h2] at e
      have k2 := once_spec a3 a4 h2
      apply Post.seq d a1 a2 (by simp)
      cases o2 with
      | some o2 =>
        simp only [Prod.mk.injEq] at e
        obtain ⟨rfl, rfl, rfl⟩ := e
        exact k2
      | none =>
        cases k2 with
        | again d2 b1 b2 b3 b4 b5 =>
          simp only at e
          rcases h3 : p2.once s2 with ⟨p3, s3, o3⟩
          rw [h3] at e
          have k3 := once_spec b3 b4 h3
          apply Post.seq d2 b1 b2 (by simp)
          cases o3 with
          | some o3 =>
            simp only [Prod.mk.injEq] at e
            obtain ⟨rfl, rfl, rfl⟩ := e
            exact k3
          | none =>
            exfalso
            cases k3 with
            | again d3 c1 c2 c3 c4 c5 =>
              rcases a5 with ⟨_, x⟩ | ⟨_, x⟩ <;> rcases b5 with ⟨y, z⟩ | ⟨y, z⟩ <;> rcases c5 with ⟨u, _⟩ | ⟨u, _⟩ <;>
                simp_all

end Verif.H3i
