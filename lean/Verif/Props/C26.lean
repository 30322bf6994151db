import Verif.Conn.Reach

/-! # C26 — every completed peer stream gives back exactly one stream credit -/

namespace Verif.C26
open Verif Stream Verif.Conn Verif.Conn.Conn

/-- The peer-initiated streams of a kind that have been completed and collected. -/
def completed (c : Conn) (bidi : Bool) : List Nat :=
  (Assoc.keys c.collected).filter (fun id => isBidi id == bidi && !isLocal id c.isServer)

theorem completed_length (c : Conn) (bidi : Bool) :
    (completed c bidi).length = credits c.isServer c.collected bidi := by
  unfold completed credits Assoc.keys
  rw [List.filter_map, List.length_map]; rfl

/-- **C26.** After every history the limit on peer-initiated streams that will be
advertised next is the initial one plus the number of completed peer-initiated streams of
that kind, each counted once. -/
theorem next_limit (g : Config) (hd : 0 < g.factorDen) (ops : List Op) (hok : ∀ op ∈ ops, op.Ok)
    (hcr : (after g ops).crashed = false) (bidi : Bool) :
    ((after g ops).counts bidi).localMaxNext =
      (if bidi then g.maxStreamsBidi else g.maxStreamsUni) + (completed (after g ops) bidi).length ∧
    (completed (after g ops) bidi).Nodup := by
  rcases after_inv g hd hok with hI | hc
  · have h1 := hI.shape.wf.credit bidi
    have h2 := hI.init bidi
    have h3 : (books g ops).first = (Hist.init g).first := (Hist.of_const _ _).2
    rw [h3] at h2
    simp only [Hist.init] at h2
    rw [completed_length, h1, h2]
    exact ⟨rfl, hI.shape.wf.ndG.filter _⟩
  · rw [hcr] at hc; cases hc

/-- **C26.** A MAX_STREAMS frame carries exactly this value, and it is never below what was
advertised before. -/
theorem advertised (g : Config) (hd : 0 < g.factorDen) (ops : List Op) (hok : ∀ op ∈ ops, op.Ok)
    (bidi fits : Bool) (m : Nat)
    (hs : ((after g ops).step (.outMaxStreams bidi fits)).2 = .sentMaxStreams m) :
    m = (if bidi then g.maxStreamsBidi else g.maxStreamsUni) + (completed (after g ops) bidi).length ∧
    (books g ops).adv bidi ≤ m := by
  unfold step at hs
  split at hs
  · cases hs
  · next hcr =>
    have hcr' : (after g ops).crashed = false := by simp at hcr; exact hcr.1
    have h1 := (next_limit g hd ops hok hcr' bidi).1
    have hm : m = ((after g ops).counts bidi).localMaxNext := by
      simp only at hs
      cases bidi
      · rcases outMaxStreams_false (after g ops) fits with e | e <;> rw [e] at hs <;> cases hs; rfl
      · rcases outMaxStreams_true (after g ops) fits with e | e <;> rw [e] at hs <;> cases hs; rfl
    refine ⟨by rw [hm]; exact h1, ?_⟩
    rcases after_inv g hd hok with hI | hc
    · have h2 := hI.shape.wf.next bidi
      have h3 := hI.adv bidi
      omega
    · rw [hcr'] at hc; cases hc

/-- **C26.** Over any continuation the advertised limits do not decrease. -/
theorem monotone (g : Config) (hd : 0 < g.factorDen) (a b : List Op) (hok : ∀ op ∈ a ++ b, op.Ok) (bidi : Bool) :
    (books g a).adv bidi ≤ (books g (a ++ b)).adv bidi := by
  induction b generalizing a with
  | nil => simp
  | cons op b ih =>
    have e : a ++ op :: b = (a ++ [op]) ++ b := by simp
    rw [e] at hok ⊢
    refine Nat.le_trans ?_ (ih (a ++ [op]) hok)
    have hadv := advertised g hd a (fun o ho => hok o (by simp [ho]))
    rw [books_append]
    show _ ≤ ((books g a).step op ((after g a).step op).2).adv bidi
    generalize hev : ((after g a).step op).2 = ev
    unfold Hist.step
    split <;> try exact Nat.le_refl _
    simp only
    split
    · next e => subst e; exact (hadv _ _ _ hev).2
    · exact Nat.le_refl _

/-- **C26.** The credit is handed out in time: as soon as the peer has no more than half
of the initial allowance left to open and there are completed streams whose credit was
not advertised yet, the next packet with room for it carries a MAX_STREAMS frame. -/
theorem in_time (g : Config) (hd : 0 < g.factorDen) (ops : List Op) (hok : ∀ op ∈ ops, op.Ok)
    (hcr : (after g ops).crashed = false) (hdd : (after g ops).dead = false) (bidi : Bool)
    (hnew : (books g ops).adv bidi ≠
      (if bidi then g.maxStreamsBidi else g.maxStreamsUni) + (completed (after g ops) bidi).length)
    (hleft : (books g ops).adv bidi ≤ ((after g ops).counts bidi).peerOpened +
      (if bidi then g.maxStreamsBidi else g.maxStreamsUni) / 2) :
    ∃ m, ((after g ops).step (.outMaxStreams bidi true)).2 = .sentMaxStreams m := by
  have h1 := (next_limit g hd ops hok hcr bidi).1
  rcases after_inv g hd hok with hI | hc
  · have h3 := hI.adv bidi
    have h2 := hI.init bidi
    have h4 : (books g ops).first = (Hist.init g).first := (Hist.of_const _ _).2
    rw [h4] at h2
    simp only [Hist.init] at h2
    have hsh : shouldUpdateMaxStreams ((after g ops).counts bidi) = true := by
      unfold shouldUpdateMaxStreams
      simp only [Bool.and_eq_true, bne_iff_ne, ne_eq, decide_eq_true_eq]
      rw [h2]
      omega
    unfold step
    simp only [hcr, hdd, Bool.false_or, Bool.false_and, Bool.false_eq_true, if_false]
    unfold outMaxStreams
    simp only [hsh, Bool.true_or, if_true]
    exact ⟨_, rfl⟩
  · rw [hcr] at hc; cases hc

/-- A server with room for two unidirectional streams: nothing is advertised until one is
completed, then exactly one more. -/
example : ((start { isServer := true, loc := { uni := 100 }, maxData := 100, maxStreamsUni := 2 }).run
      [.recvStream 6 0 [1] true, .outMaxStreams false true, .recv 6 9, .outMaxStreams false true,
       .recvStream 10 0 [1] true, .outMaxStreams false true, .outMaxStreams false true]).2.map (·.2) =
    [.ok, .idle, .got [1] true, .sentMaxStreams 3, .ok, .idle, .idle] := by decide

/-- The hypotheses of `in_time` are met: half of the allowance is left exactly. -/
example : let g : Config := { isServer := true, loc := { uni := 100 }, maxData := 100, maxStreamsUni := 2 }
    let c := after g [.recvStream 2 0 [1] true, .recv 2 9]
    (c.counts false).localMax = (c.counts false).peerOpened + g.maxStreamsUni / 2 ∧ completed c false = [2] ∧
    (c.step (.outMaxStreams false true)).2 = .sentMaxStreams 3 := by decide +kernel

end Verif.C26
