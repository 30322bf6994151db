import Verif.Stream.SendHist

/-! # C17 — a sending stream never exceeds the peer's stream limit -/

namespace Verif.C17
open Verif Stream SendBuf

/-- **C17**, accepting: what the application was allowed to write never exceeds the
limit granted so far. -/
theorem written_within_limit (m0 : Nat) (hm : m0 < 2 ^ 62) (ops : List SOp)
    (hop : ∀ op ∈ ops, op.Ok) :
    (written (run (start m0) ops).2).length ≤ limit m0 (run (start m0) ops).2 := by
  have h := run_hinv hm hop
  rw [← h.lim]
  exact h.inv.wmax

/-- **C17**, sending: no frame reaches beyond the limit granted before it was sent. -/
theorem sent_within_limit (m0 : Nat) (hm : m0 < 2 ^ 62) (ops : List SOp) (hop : ∀ op ∈ ops, op.Ok)
    (a b : List SEv) (off : Nat) (bs : Bytes) (fin : Bool)
    (hes : (run (start m0) ops).2 = a ++ .sent off bs fin :: b) :
    off + bs.length ≤ limit m0 a := by
  obtain ⟨o1, op, o2, h1, h2, h3⟩ := run_split hes
  have h := run_hinv hm (ops := o1) (fun o ho => hop o (by simp [h1, ho]))
  rw [h2] at h
  obtain ⟨n, s', -, rfl, -, S, -⟩ := step_sent h h3
  rw [← h.lim]
  have := S.bound
  have := h.inv.max
  omega

theorem le_limit (m0 : Nat) (es : List SEv) : m0 ≤ limit m0 es := by
  induction es generalizing m0 with
  | nil => exact Nat.le_refl _
  | cons e t ih =>
    simp only [limit, List.foldl_cons]
    cases e <;> first
      | exact ih m0
      | exact Nat.le_trans (Nat.le_max_left _ _) (ih _)

/-- The limit the events grant never decreases, and it is the largest one granted. -/
theorem limit_mono (m0 : Nat) (a b : List SEv) : limit m0 a ≤ limit m0 (a ++ b) := by
  have : limit m0 (a ++ b) = limit (limit m0 a) b := by simp [limit, List.foldl_append]
  rw [this]; exact le_limit _ _

theorem limit_ge (m0 m : Nat) (es : List SEv) (h : SEv.limit m ∈ es) : m ≤ limit m0 es := by
  obtain ⟨a, b, rfl⟩ := List.append_of_mem h
  have : limit m0 (a ++ SEv.limit m :: b) = limit (max (limit m0 a) m) b := by
    simp [limit, List.foldl_append]
  rw [this]
  exact Nat.le_trans (Nat.le_max_right _ _) (le_limit _ _)

theorem limit_is_granted (m0 : Nat) (es : List SEv) :
    limit m0 es = m0 ∨ SEv.limit (limit m0 es) ∈ es := by
  induction es generalizing m0 with
  | nil => exact .inl rfl
  | cons e t ih =>
    have hne : ∀ m0', limit m0' t = m0' ∨ SEv.limit (limit m0' t) ∈ t := ih
    cases e with
    | limit m =>
      show limit (max m0 m) t = m0 ∨ SEv.limit (limit (max m0 m) t) ∈ SEv.limit m :: t
      rcases ih (max m0 m) with h | h
      · by_cases hm : m ≤ m0
        · left; rw [h]; omega
        · right; rw [h, Nat.max_eq_right (by omega)]; simp
      · right; simp [h]
    | _ =>
      show limit m0 t = m0 ∨ SEv.limit (limit m0 t) ∈ _ :: t
      rcases ih m0 with h | h
      · exact .inl h
      · exact .inr (by simp [h])

/-- The limit is not only obeyed but used: a write on a stream that was neither
finished nor abandoned takes as many bytes as the limit allows, or is refused with
"nothing accepted" when that is none. -/
theorem write_takes_all_allowed (m0 : Nat) (hm : m0 < 2 ^ 62) (ops : List SOp)
    (hop : ∀ op ∈ ops, op.Ok) (d : Bytes) (fin : Bool)
    (hlive : ¬ wasCut (run (start m0) ops).2) (hfin : finalSize (run (start m0) ops).2 = none) :
    (step (run (start m0) ops).1 (.write d fin)).2 =
      .offered d fin (min d.length
        (limit m0 (run (start m0) ops).2 - (written (run (start m0) ops).2).length)) := by
  have h := run_hinv hm hop
  generalize run (start m0) ops = x at *
  obtain ⟨st, es⟩ := x
  simp only at *
  have hs : st.s.error = none ∧ st.s.shutdown = false ∧ st.s.off = (written es).length := by
    rcases h.inv.state with hs | hs
    · exact hs
    · exact absurd (h.cut.mpr hs.2.2.2.2.2.1) hlive
  rw [finalSize_eq, h.acc] at hfin
  simp only [step]
  rcases write_spec h.inv d fin with ⟨s', n, e, T⟩ | ⟨er, e, hne, hx⟩
  · rw [e]
    simp only [SEv.offered.injEq, true_and]
    rw [T.amount, h.lim, hs.2.2]
  · simp only at hfin; exact absurd hx (by simp [hs.1, hfin])

/-- With a limit of 3 only three bytes of five are taken, nothing further until the
limit is raised; an update to a smaller value changes nothing. -/
example : (run (start 3) [.write [1, 2, 3, 4, 5] true, .emit 10, .maxData 1, .write [4] false,
      .maxData 4, .write [4, 5] true, .emit 10]).2 =
    [.offered [1, 2, 3, 4, 5] true 3, .sent 0 [1, 2, 3] false, .limit 1, .offered [4] false 0,
     .limit 4, .offered [4, 5] true 1, .sent 3 [4] false] := by decide

end Verif.C17
