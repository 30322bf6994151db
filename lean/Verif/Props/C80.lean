import Verif.Path.Step

/-!
C80: the table of paths is consistent and bounded.
-/

namespace Verif.Props.C80
open Verif Verif.Path

variable {server verified noReuse : Bool} {a : Nat × Nat} {limit factor recvMax : Nat} {scid dcid : Bytes} {stok dtok : Option Nat}

/-- Two paths never have the same addresses. -/
theorem one_path (ops : List Op) (i j : Nat) (p q : Path) :
    let c := (Conn.start server verified a limit factor recvMax noReuse scid dcid stok dtok).run ops
    c.paths.get i = some p → c.paths.get j = some q → p.laddr = q.laddr → p.paddr = q.paddr → i = j := by
  intro c hp hq hl hr
  have h := run_inv (start_inv server verified a limit factor recvMax noReuse scid dcid stok dtok) ops
  have h1 := (h.table.addrs (p.laddr, p.paddr) i).mpr ⟨p, hp, rfl⟩
  have h2 := (h.table.addrs (p.laddr, p.paddr) j).mpr ⟨q, hq, by rw [hl, hr]⟩
  rw [h1] at h2
  exact Option.some.inj h2

/-- A datagram, and a call that names addresses, finds the path with these addresses
exactly if there is one. -/
theorem found (ops : List Op) (b : Nat × Nat) (i : Nat) :
    let c := (Conn.start server verified a limit factor recvMax noReuse scid dcid stok dtok).run ops
    c.paths.fromAddrs b = some i ↔ ∃ p, c.paths.get i = some p ∧ (p.laddr, p.paddr) = b :=
  (run_inv (start_inv server verified a limit factor recvMax noReuse scid dcid stok dtok) ops).table.addrs b i

/-- There is always a path, and never more than the configured number of connection IDs. -/
theorem bounded (ops : List Op) :
    let c := (Conn.start server verified a limit factor recvMax noReuse scid dcid stok dtok).run ops
    0 < c.paths.len ∧ c.paths.len ≤ max 1 limit := by
  intro c
  have h0 := start_inv server verified a limit factor recvMax noReuse scid dcid stok dtok
  have h := run_inv h0 ops
  have h1 := h.table.len
  rw [← len_of_all h.table, run_maxPaths h0 ops] at h1
  refine ⟨?_, h1⟩
  have h2 := h.pos
  rw [← len_of_all h.table] at h2
  exact h2

/-- A connection ID in use on a path is in use on one that exists. -/
theorem links (ops : List Op) (k : Nat) :
    let c := (Conn.start server verified a limit factor recvMax noReuse scid dcid stok dtok).run ops
    (∀ e ∈ c.ids.dcids.inner, e.path = some k → ∃ p, c.paths.get k = some p) ∧
    (∀ e ∈ c.ids.scids.inner, e.path = some k → ∃ p, c.paths.get k = some p) := by
  intro c
  have h := run_inv (start_inv server verified a limit factor recvMax noReuse scid dcid stok dtok) ops
  exact ⟨fun e he hk => h.table.all k (h.linked.dst e he k hk), fun e he hk => h.table.all k (h.linked.src e he k hk)⟩

/-- A new path takes the place only of one that is not active and has no destination
connection ID; all others stay as they are. It is refused only if the table is full and
there is no such path. -/
theorem room (ops : List Op) (p : Path) (s : Bool) :
    let c := (Conn.start server verified a limit factor recvMax noReuse scid dcid stok dtok).run ops
    c.paths.fromAddrs (p.laddr, p.paddr) = none →
    match c.paths.insertPath p s with
    | some (k, m) => m.get k = some p ∧ (∀ i, i ≠ k → m.get i = c.paths.get i) ∧
        (∀ old, c.paths.get k = some old → old.isActive = false ∧ old.dcid = none ∧ c.paths.len = max 1 limit)
    | none => limit ≤ c.paths.len ∧ ∀ i q, c.paths.get i = some q → q.isActive = true ∨ q.dcid ≠ none := by
  intro c hn
  have h0 := start_inv server verified a limit factor recvMax noReuse scid dcid stok dtok
  have h := run_inv h0 ops
  have hm : c.paths.maxPaths = limit := run_maxPaths h0 ops
  have hun : ∀ q : Path, q.unused = true ↔ q.isActive = false ∧ q.dcid = none := by
    intro q; unfold Path.unused; simp
  split
  · rename_i k m hi
    have sp := insertPath_spec h.table hn hi
    refine ⟨sp.self, sp.other, fun old hold => ?_⟩
    rcases sp.place with ⟨hk, _⟩ | ⟨⟨old', ho, hu⟩, hl⟩
    · have := PathMap.get_lt hold
      have hk : k = c.paths.slots.length := hk
      omega
    · rw [hold] at ho
      cases ho
      obtain ⟨u1, u2⟩ := (hun old).mp hu
      refine ⟨u1, u2, ?_⟩
      have hb := (bounded (server := server) (verified := verified) (a := a) (limit := limit) (factor := factor) (recvMax := recvMax)
        (noReuse := noReuse) (scid := scid) (dcid := dcid) (stok := stok) (dtok := dtok) ops)
      have hpos := hb.1
      have hle : c.paths.len ≤ max 1 limit := hb.2
      have hge : ¬ c.paths.len < limit := by
        intro hlt
        have hl2 := len_of_all h.table
        unfold PathMap.insertPath PathMap.makeRoom at hi
        rw [hm] at hi
        have : c.paths.len < limit := hlt
        rw [if_pos this] at hi
        dsimp only at hi
        unfold PathMap.slabInsert at hi
        have hfree : c.paths.free = [] := h.table.free
        rw [hfree] at hi
        have hi := (Prod.mk.inj (Option.some.inj hi)).1
        have := PathMap.get_lt hold
        have hi : c.paths.slots.length = k := hi
        omega
      have hpos : 0 < c.paths.len := hpos
      omega
  · rename_i hi
    have := insertPath_none hi
    rw [hm] at this
    refine ⟨this.1, fun i q hq => ?_⟩
    have hu := this.2 i q hq
    cases ha : q.isActive with
    | true => exact Or.inl rfl
    | false =>
      right
      intro hd
      rw [(hun q).mpr ⟨ha, hd⟩] at hu
      cases hu

/-- A server that allows two paths: a third address takes the place of a path that never
got a connection ID, then there is no room. -/
example :
    let c := (Conn.start true false (1, 2) 2 3 3 false [1] [2] none none).run
      [.establish, .recv (1, 3) 100 [.short [1] [.padding] true], .recv (1, 4) 100 [.short [1] [.padding] true]]
    c.paths.len = 2 ∧ c.paths.fromAddrs (1, 3) = none ∧ c.paths.fromAddrs (1, 4) = some 1 ∧
    c.paths.events = [.new 1 3, .reusedScid 0 1 2 1 3, .closed 1 3, .new 1 4, .reusedScid 0 1 2 1 4] := by decide +kernel

end Verif.Props.C80
