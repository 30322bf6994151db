import Verif.Tq.Ancillary

/-!
C189: what a received message says besides its bytes.

The address a datagram was sent to, the size of the datagrams put together by the system and the mark
of the socket are passed on as the system gave them, for either order of bytes of the host; a reply
leaves from the address the datagram was sent to; drops are counted.

False: the scope of an IPv6 address is turned around on little-endian hosts, so that the router takes
its own address for another (`scope_false`); with all options on, the messages of an IPv6 socket do not
fit (`room_false`), and datagrams put together are then read as one (`batch_false`); a count of drops
that wraps is a panic where overflows are checked (`drops_false`).
-/

namespace Verif.Props.C189

open Verif Verif.Tq.Ancillary Verif.Tq.Worker

/-! ### Bytes -/

theorem leBytes_le : ∀ l : Bytes, leBytes l.length (le l) = l
  | [] => rfl
  | b :: l => by
    have hb : UInt8.ofNat (b.toNat + 256 * le l) = b := by
      apply UInt8.toNat_inj.mp
      have := b.toNat_lt
      rw [UInt8.toNat_ofNat']
      omega
    have hd : (b.toNat + 256 * le l) / 256 = le l := by
      have := b.toNat_lt
      omega
    simp only [List.length_cons, le, leBytes, hb, hd, leBytes_le l]

theorem toBe_read (h : Host) (l : Bytes) {n : Nat} (hn : l.length = n) : h.toBe n (h.read l) = be l := by
  subst hn
  cases h
  · simp only [Host.toBe, Host.read, leBytes_le]
  · rfl

theorem octets (l : Bytes) {n : Nat} (hn : l.length = n) : (leBytes n (be l)).reverse = l := by
  have := leBytes_le l.reverse
  rw [List.length_reverse, hn] at this
  rw [be, this, List.reverse_reverse]

theorem write_read (h : Host) (l : Bytes) {n : Nat} (hn : l.length = n) : h.write n (h.read l) = l := by
  cases h
  · subst hn; exact leBytes_le l
  · exact octets l hn

theorem le_inj {l m : Bytes} (hl : l.length = m.length) (h : le l = le m) : l = m := by
  rw [← leBytes_le l, ← leBytes_le m, hl, h]

/-! ### Addresses -/

/-- The sizes of the fields. -/
def Sin.Ok (s : Sin) : Prop := s.port.length = 2 ∧ s.addr.length = 4
def Sin6.Ok (s : Sin6) : Prop := s.port.length = 2 ∧ s.flow.length = 4 ∧ s.addr.length = 16 ∧ s.scope.length = 4

/-- An IPv4 destination is read as the standard library reads addresses. -/
theorem dst4 (h : Host) (s : Sin) (hs : Sin.Ok s) : orig4 h s = std4 h s := by
  simp only [orig4, std4, toBe_read h _ hs.1, toBe_read h _ hs.2, octets _ hs.2]

/-- An IPv6 destination: address and port; the other two with the most significant byte first. -/
theorem dst6 (h : Host) (s : Sin6) (hs : Sin6.Ok s) : orig6 h s = .v6 s.addr (be s.port) (be s.flow) (be s.scope) := by
  simp only [orig6, toBe_read h _ hs.1, toBe_read h _ hs.2.1, toBe_read h _ hs.2.2.2]

/-- It is read as the standard library reads addresses exactly if the host is big-endian or flow
information and scope are the same in both directions (as are zeros). -/
theorem dst6_partial (h : Host) (s : Sin6) (hs : Sin6.Ok s) :
    orig6 h s = std6 h s ↔ h = .big ∨ (s.flow.reverse = s.flow ∧ s.scope.reverse = s.scope) := by
  rw [dst6 h s hs]
  cases h
  · simp only [std6, Host.read, Addr.v6.injEq, true_and, be]
    constructor
    · rintro ⟨h1, h2⟩
      exact Or.inr ⟨le_inj (by simp) h1, le_inj (by simp) h2⟩
    · rintro (h1 | ⟨h1, h2⟩)
      · exact absurd h1 (by simp)
      · rw [h1, h2]; exact ⟨rfl, rfl⟩
  · simp [std6, Host.read]

theorem resolve_getD (a b : Addr) : (resolve a b).getD a = b := by
  unfold resolve
  split
  · rfl
  · rename_i h; simpa using h

/-- The last destination among the messages. -/
def lastDst (h : Host) : List Cmsg → Option Addr → Option Addr
  | [], d => d
  | .dst4 s :: l, _ => lastDst h l (some (orig4 h s))
  | .dst6 s :: l, _ => lastDst h l (some (orig6 h s))
  | _ :: l, d => lastDst h l d

/-- The last size of datagrams put together. -/
def lastGro : List Cmsg → Option Nat → Option Nat
  | [], g => g
  | .gro n :: l, _ => lastGro l (some n)
  | _ :: l, g => lastGro l g

/-- The last mark. -/
def lastMark : List Cmsg → Option Bytes → Option Bytes
  | [], m => m
  | .other lv t d :: l, m => lastMark l (if lv = solSocket ∧ t = soMark ∧ d.length = 4 then some d else m)
  | _ :: l, m => lastMark l m

/-- The reports of drops. -/
def reports : List Cmsg → List Nat
  | [] => []
  | .rxqOvfl c :: l => c :: reports l
  | _ :: l => reports l

/-- Counting them. -/
def drops (checked : Bool) : Router → List Nat → Option Router
  | r, [] => some r
  | r, c :: l =>
    match r.dropped checked c with
    | none => none
    | some r => drops checked r l

theorem dropped_loc {r r' : Router} {k : Bool} {c : Nat} (h : r.dropped k c = some r') : r'.loc = r.loc := by
  unfold Router.dropped at h
  split at h
  · split at h
    · exact absurd h (by simp)
    · simp only [Option.some.injEq] at h; subst h; rfl
  · simp only [Option.some.injEq] at h; subst h; rfl

/-- What is told of the messages. -/
theorem cmsgs_spec (h : Host) (k : Bool) : ∀ (l : List Cmsg) (r : Router) (i : Info) (d : Option Addr),
    i.dst.getD r.loc = d.getD r.loc → ∀ {x : Router × Info}, Router.cmsgs h k r i l = some x →
    x.1.loc = r.loc ∧ drops k r (reports l) = some x.1 ∧ x.2.dst.getD r.loc = (lastDst h l d).getD r.loc ∧
    x.2.gro = lastGro l i.gro ∧ x.2.mark = lastMark l i.mark
  | [], r, i, d, hd, x, hx => by
    simp only [Router.cmsgs, Option.some.injEq] at hx
    subst hx
    exact ⟨rfl, rfl, hd, rfl, rfl⟩
  | c :: l, r, i, d, hd, x, hx => by
    unfold Router.cmsgs at hx
    cases c with
    | rxqOvfl c =>
      simp only [Router.cmsg] at hx
      cases hr : r.dropped k c with
      | none => simp [hr] at hx
      | some r' =>
        simp only [hr, Option.map_some] at hx
        have hl := dropped_loc hr
        have := cmsgs_spec h k l r' i d (by rw [hl]; exact hd) hx
        rw [hl] at this
        simp only [reports, drops, hr, lastDst, lastGro, lastMark]
        exact this
    | timestamp t => exact cmsgs_spec h k l r { i with rx := some t } d hd hx
    | gro n => exact cmsgs_spec h k l r { i with gro := some n } d hd hx
    | dst4 s => exact cmsgs_spec h k l r { i with dst := resolve r.loc (orig4 h s) } (some (orig4 h s)) (resolve_getD _ _) hx
    | dst6 s => exact cmsgs_spec h k l r { i with dst := resolve r.loc (orig6 h s) } (some (orig6 h s)) (resolve_getD _ _) hx
    | pktinfo4 => exact cmsgs_spec h k l r i d hd hx
    | pktinfo6 => exact cmsgs_spec h k l r i d hd hx
    | other lv t dt =>
      simp only [Router.cmsg] at hx
      by_cases h1 : lv = solSocket ∧ t = soMark
      · rw [if_pos h1] at hx
        by_cases h2 : dt.length = 4
        · rw [if_pos h2] at hx
          have := cmsgs_spec h k l r { i with mark := some dt } d hd hx
          simp only [reports, lastDst, lastGro, lastMark, if_pos (show lv = solSocket ∧ t = soMark ∧ dt.length = 4 from ⟨h1.1, h1.2, h2⟩)]
          exact this
        · rw [if_neg h2] at hx
          have := cmsgs_spec h k l r i d hd hx
          simp only [reports, lastDst, lastGro, lastMark, if_neg (show ¬ (lv = solSocket ∧ t = soMark ∧ dt.length = 4) from fun h => h2 h.2.2)]
          exact this
      · rw [if_neg h1] at hx
        have := cmsgs_spec h k l r i d hd hx
        simp only [reports, lastDst, lastGro, lastMark, if_neg (show ¬ (lv = solSocket ∧ t = soMark ∧ dt.length = 4) from fun h => h1 ⟨h.1, h.2.1⟩)]
        exact this

/-- If the messages fit: bytes, destination, size of the datagrams, mark and drops are those the system
told, the destination being the router's own if none is told. -/
theorem told (h : Host) (k : Bool) (r r' : Router) (buf : Bytes) (cs : List Cmsg) (g : Got)
    (hfit : putAll room cs = true) (hr : r.recv h k buf cs = some (r', g)) :
    g.pkt.buf = buf ∧ g.loc = (lastDst h cs none).getD r.loc ∧ g.pkt.gro = lastGro cs none ∧
    g.info.mark = lastMark cs none ∧ drops k r (reports cs) = some r' := by
  unfold Router.recv at hr
  rw [if_pos hfit] at hr
  cases hc : Router.cmsgs h k r {} cs with
  | none => simp [hc] at hr
  | some x =>
    simp only [hc, Option.map_some, Option.some.injEq, Prod.mk.injEq] at hr
    obtain ⟨h1, h2⟩ := hr
    obtain ⟨c1, c2, c3, c4, c5⟩ := cmsgs_spec h k cs r {} none rfl hc
    subst h1 h2
    exact ⟨rfl, c3, c4, c5, c2⟩

/-- A reply leaves from the address a datagram was sent to. -/
theorem reply4 (h : Host) (k : Bool) (r r' : Router) (buf : Bytes) (cs : List Cmsg) (g : Got) (s : Sin) (hs : Sin.Ok s)
    (hfit : putAll room cs = true) (hr : r.recv h k buf cs = some (r', g)) (hd : lastDst h cs none = some (orig4 h s)) :
    PktInfo.of h g.loc = .v4 s.addr := by
  rw [(told h k r r' buf cs g hfit hr).2.1, hd, dst4 h s hs]
  simp only [Option.getD_some, std4, PktInfo.of, write_read h _ hs.2]

theorem reply6 (h : Host) (k : Bool) (r r' : Router) (buf : Bytes) (cs : List Cmsg) (g : Got) (s : Sin6) (hs : Sin6.Ok s)
    (hfit : putAll room cs = true) (hr : r.recv h k buf cs = some (r', g)) (hd : lastDst h cs none = some (orig6 h s)) :
    PktInfo.of h g.loc = .v6 s.addr := by
  rw [(told h k r r' buf cs g hfit hr).2.1, hd, dst6 h s hs]
  rfl

/-! ### Drops -/

/-- Reports of a growing total, of which the system keeps 32 bits, by less than 2^32 at a time. -/
def Grows : Nat → List Nat → Prop
  | _, [] => True
  | t, u :: l => t ≤ u ∧ u < t + 2 ^ 32 ∧ Grows u l

def last : Nat → List Nat → Nat
  | t, [] => t
  | _, u :: l => last u l

theorem drops_run : ∀ (l : List Nat) (r : Router) (t : Nat), r.drops = t % 2 ^ 32 → r.metric = t → Grows t l →
    ∃ r', drops false r (l.map (· % 2 ^ 32)) = some r' ∧ r'.metric = last t l
  | [], r, t, _, h2, _ => ⟨r, rfl, h2⟩
  | u :: l, r, t, h1, h2, ⟨g1, g2, g3⟩ => by
    simp only [List.map_cons, drops, Router.dropped]
    by_cases hc : u % 2 ^ 32 ≠ r.drops
    · rw [if_pos hc, if_neg (by simp)]
      refine drops_run l _ u rfl ?_ g3
      show r.metric + (u % 2 ^ 32 + 2 ^ 32 - r.drops) % 2 ^ 32 = u
      rw [h2, h1]
      omega
    · rw [if_neg hc]
      have : u = t := by
        have : u % 2 ^ 32 = t % 2 ^ 32 := by rw [← h1]; simpa using hc
        omega
      subst this
      exact drops_run l r u h1 h2 g3

/-- Where overflows wrap, every drop is counted once. -/
theorem drops_exact (loc : Addr) (l : List Nat) (hl : Grows 0 l) :
    ∃ r, drops false { loc := loc } (l.map (· % 2 ^ 32)) = some r ∧ r.metric = last 0 l :=
  drops_run l _ 0 rfl rfl hl

/-- Where they are checked, as long as there are fewer than 2^32 of them. -/
theorem drops_partial : ∀ (l : List Nat) (r : Router) (t : Nat), r.drops = t → r.metric = t → Grows t l →
    (∀ u ∈ l, u < 2 ^ 32) → t < 2 ^ 32 → ∃ r', drops true r (l.map (· % 2 ^ 32)) = some r' ∧ r'.metric = last t l
  | [], r, t, _, h2, _, _, _ => ⟨r, rfl, h2⟩
  | u :: l, r, t, h1, h2, ⟨g1, g2, g3⟩, hu, ht => by
    have hu' := hu u (List.mem_cons_self)
    have hm : u % 2 ^ 32 = u := Nat.mod_eq_of_lt hu'
    simp only [List.map_cons, drops, Router.dropped, hm]
    by_cases hc : u ≠ r.drops
    · rw [if_pos hc, if_neg (by rw [h1]; intro h; omega)]
      refine drops_partial l _ u rfl ?_ g3 (fun v hv => hu v (List.mem_cons_of_mem _ hv)) hu'
      show r.metric + (u + 2 ^ 32 - r.drops) % 2 ^ 32 = u
      rw [h2, h1]
      omega
    · rw [if_neg hc]
      have : u = t := by rw [← h1]; simpa using hc
      subst this
      exact drops_partial l r u h1 h2 g3 (fun v hv => hu v (List.mem_cons_of_mem _ hv)) hu'

/-- Beyond that it is a panic. -/
theorem drops_false (loc : Addr) : ∃ l, Grows 0 l ∧ drops true { loc := loc } (l.map (· % 2 ^ 32)) = none := by
  refine ⟨[2 ^ 32 - 1, 2 ^ 32], ⟨by omega, by omega, by omega, by omega, trivial⟩, ?_⟩
  simp [drops, Router.dropped]

/-! ### Room -/

/-- The space a list of messages takes. -/
def total : List Cmsg → Nat
  | [] => 0
  | c :: l => space c.len + total l

theorem total_sublist {l m : List Cmsg} (h : l.Sublist m) : total l ≤ total m := by
  induction h with
  | slnil => exact Nat.le_refl _
  | cons a _ ih => simp only [total]; omega
  | cons_cons a _ ih => simp only [total]; omega

theorem total_perm {l m : List Cmsg} (h : l.Perm m) : total l = total m := by
  induction h with
  | nil => rfl
  | cons a _ ih => simp only [total, ih]
  | swap a b l => simp only [total]; omega
  | trans _ _ ih1 ih2 => exact ih1.trans ih2

theorem space_bounds (n : Nat) : 16 + n ≤ space n ∧ space n ≤ 16 + n + 7 := by
  unfold space
  omega

theorem putAll_of : ∀ (l : List Cmsg) (n : Nat), total l ≤ n → putAll n l = true
  | [], _, _ => rfl
  | c :: l, n, h => by
    simp only [total] at h
    have := space_bounds c.len
    unfold putAll
    rw [if_neg (show ¬ n < 16 + c.len by omega)]
    exact putAll_of l _ (by rw [Nat.min_eq_left (by omega)]; omega)

theorem putAll_le : ∀ (l : List Cmsg) (n : Nat), putAll n l = true → total l ≤ n + 7
  | [], _, _ => Nat.zero_le _
  | c :: l, n, h => by
    unfold putAll at h
    have hb := space_bounds c.len
    split at h
    · exact absurd h (by simp)
    · have := putAll_le l _ h
      simp only [total]
      rcases Nat.le_total (space c.len) n with hn | hn
      · rw [Nat.min_eq_left hn] at this; omega
      · rw [Nat.min_eq_right hn] at this
        have h0 : putAll 0 l = true := by rw [Nat.min_eq_right hn] at h; simpa using h
        cases l with
        | nil => simp only [total]; omega
        | cons d l =>
          unfold putAll at h0
          rw [if_pos (by omega)] at h0
          exact absurd h0 (by simp)

/-- The mark of a socket. -/
def mark (d : Bytes) : Cmsg := .other solSocket soMark d

/-- On an IPv4 socket all messages fit, in any order, with any options. -/
theorem room4 (c t n : Nat) (s : Sin) (d : Bytes) (hd : d.length = 4) (l m : List Cmsg)
    (hm : m.Sublist [.timestamp t, .rxqOvfl c, mark d, .gro n, .pktinfo4, .dst4 s]) (hl : l.Perm m) :
    putAll room l = true := by
  apply putAll_of
  rw [total_perm hl]
  refine Nat.le_trans (total_sublist hm) ?_
  simp only [total, Cmsg.len, mark, hd]
  decide

/-- On an IPv6 socket, without time stamps. -/
theorem room6_partial (c n : Nat) (s : Sin6) (d : Bytes) (hd : d.length = 4) (l m : List Cmsg)
    (hm : m.Sublist [.rxqOvfl c, mark d, .gro n, .pktinfo6, .dst6 s]) (hl : l.Perm m) :
    putAll room l = true := by
  apply putAll_of
  rw [total_perm hl]
  refine Nat.le_trans (total_sublist hm) ?_
  simp only [total, Cmsg.len, mark, hd]
  decide

/-- IPv4 on an IPv6 socket, without time stamps. -/
theorem room46_partial (c n : Nat) (s : Sin) (d : Bytes) (hd : d.length = 4) (l m : List Cmsg)
    (hm : m.Sublist [.rxqOvfl c, mark d, .gro n, .pktinfo6, .pktinfo4, .dst4 s]) (hl : l.Perm m) :
    putAll room l = true := by
  apply putAll_of
  rw [total_perm hl]
  refine Nat.le_trans (total_sublist hm) ?_
  simp only [total, Cmsg.len, mark, hd]
  decide

/-- With all options on an IPv6 socket, they do not, in whatever order. -/
theorem room_false (c t n : Nat) (s : Sin6) (d : Bytes) (hd : d.length = 4) (l : List Cmsg)
    (hl : l.Perm [.timestamp t, .rxqOvfl c, mark d, .gro n, .pktinfo6, .dst6 s]) : putAll room l = false := by
  cases hp : putAll room l with
  | false => rfl
  | true =>
    have := putAll_le l room hp
    rw [total_perm hl] at this
    simp only [total, Cmsg.len, mark, hd] at this
    exact absurd this (by decide)

/-- Then nothing of what the system said is used: datagrams put together are read as one, and replies
leave from the address of the router. -/
theorem batch_false (h : Host) (k : Bool) (r : Router) (buf : Bytes) (c t n : Nat) (s : Sin6) (d : Bytes) (hd : d.length = 4) :
    ∃ g, r.recv h k buf [.timestamp t, .rxqOvfl c, mark d, .gro n, .pktinfo6, .dst6 s] = some (r, g) ∧
      g.pkt.dgrams = [buf] ∧ g.loc = r.loc := by
  refine ⟨⟨⟨buf, none⟩, r.loc, {}⟩, ?_, rfl, rfl⟩
  unfold Router.recv
  rw [room_false c t n s d hd _ (List.Perm.refl _)]
  rfl

/-! ### Runs, and what is false -/

/-- fe80::1, port 443, interface 2; on a little-endian host. -/
def own : Sin6 := ⟨[1, 187], [0, 0, 0, 0], [0xfe, 0x80, 0, 0, 0, 0, 0, 0, 0, 0, 0, 0, 0, 0, 0, 1], [2, 0, 0, 0]⟩

example : Sin6.Ok own := by simp [Sin6.Ok, own]

/-- A datagram sent to the router's own address is taken for one sent to another. -/
theorem scope_false : ∃ g, ({ loc := std6 .little own } : Router).recv .little false [] [.dst6 own] =
    some ({ loc := std6 .little own }, g) ∧ g.loc ≠ std6 .little own ∧
    g.loc = .v6 own.addr 443 0 33554432 := ⟨_, rfl, by decide +kernel, by decide +kernel⟩

/-- Not so with IPv4, or without a scope. -/
example : (({ loc := .v4 [192, 0, 2, 1] 443 } : Router).recv .little false [7] [.dst4 ⟨[1, 187], [192, 0, 2, 1]⟩]).map (·.2.info.dst)
    = some none := by decide +kernel

example : (({ loc := .v4 [0, 0, 0, 0] 443 } : Router).recv .little false [1, 2, 3, 4, 5] [.gro 2, .dst4 ⟨[1, 187], [192, 0, 2, 1]⟩,
    mark [1, 0, 0, 0], .rxqOvfl 5]).map (fun x => (x.2.pkt.dgrams, x.2.loc, PktInfo.of .little x.2.loc, x.2.info.mark, x.1.metric))
    = some ([[1, 2], [3, 4], [5]], .v4 [192, 0, 2, 1] 443, .v4 [192, 0, 2, 1], some [1, 0, 0, 0], 5) := by decide +kernel

/-- Either order of bytes. -/
example : orig4 .big ⟨[1, 187], [192, 0, 2, 1]⟩ = .v4 [192, 0, 2, 1] 443 ∧
    orig4 .little ⟨[1, 187], [192, 0, 2, 1]⟩ = .v4 [192, 0, 2, 1] 443 := by decide +kernel

end Verif.Props.C189
