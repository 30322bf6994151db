import Verif.Packet.Keys

/-!
C181: both endpoints derive the keys that RFC 9001 has, and every packet can be sealed.
-/

namespace Verif.Props.C181
open Verif.Tls (Str Alg Level Epoch)
open Verif.Keys

/-! ### Specification -/

/-- A vector with its length in one byte (RFC 8446, 3.4). -/
def vec8 (b : Str) : Str := b.length :: b

/-- `HkdfLabel` (RFC 8446, 7.1): length, label with `tls13 ` in front, context. -/
def hkdfLabel (len : Nat) (label context : Str) : Str :=
  [len / 256, len % 256] ++ vec8 (ascii "tls13 " ++ label) ++ vec8 context

/-- `HKDF-Expand-Label` with an empty context. -/
def derive (h : Hkdf) (m : Md) (secret : Str) (label : String) (len : Nat) : Option Str :=
  h.expand m secret (hkdfLabel len (ascii label) []) len

/-- The cipher suites: hash and length of keys (RFC 8446, B.4; RFC 5116, RFC 8439). -/
inductive Params : Alg → Md → Nat → Prop
  | aes128 : Params .aes128 .sha256 16
  | aes256 : Params .aes256 .sha384 32
  | chacha : Params .chacha .sha256 32

/-- Keys as RFC 9001 (5.1) derives them from a secret. -/
def Rfc (h : Hkdf) (a : Alg) (secret : Str) (k : Keys) : Prop :=
  ∃ m n, Params a m n ∧ k.alg = a ∧ k.secret = secret ∧
    derive h m secret "quic key" n = some k.key ∧
    derive h m secret "quic iv" 12 = some k.iv ∧
    derive h m secret "quic hp" n = some k.hp

/-- The initial secrets of RFC 9001 (5.2). -/
def InitialSecrets (h : Hkdf) (cid client server : Str) : Prop :=
  ∃ prk, h.extract .sha256
      [0x38, 0x76, 0x2c, 0xf7, 0xf5, 0x59, 0x34, 0xb3, 0x4d, 0x17, 0x9a, 0xe6, 0xa4, 0xc8, 0x0c, 0xad, 0xcc, 0xbb, 0x7f, 0x0a] cid = some prk ∧
    derive h .sha256 prk "client in" 32 = some client ∧ derive h .sha256 prk "server in" 32 = some server

/-! ### Labels -/

theorem info_eq (label : Str) (len : Nat) (hl : label.length ≤ 249) (hn : len < 65536) :
    info label len = hkdfLabel len label [] := by
  have hp : ascii "tls13 " = [116, 108, 115, 49, 51, 32] := by decide +kernel
  simp only [info, hkdfLabel, vec8, hp, Nat.mod_eq_of_lt hn]
  rw [Nat.mod_eq_of_lt (by omega : 6 + label.length < 256)]
  simp
  omega

/-- Different labels, lengths or contexts are different inputs of HKDF. -/
theorem label_inj {la lb ca cb : Str} {n m : Nat} (h : hkdfLabel n la ca = hkdfLabel m lb cb) :
    n = m ∧ la = lb ∧ ca = cb := by
  have hp : ascii "tls13 " = [116, 108, 115, 49, 51, 32] := by decide +kernel
  simp only [hkdfLabel, vec8, hp, List.cons_append, List.nil_append, List.cons.injEq, List.length_cons] at h
  obtain ⟨h1, h2, h3, h4⟩ := h
  have hl : la.length = lb.length := by simpa using h3
  simp only [true_and] at h4
  have h5 := List.append_inj h4 hl
  obtain ⟨h6, h7⟩ := h5
  refine ⟨?_, h6, by simp at h7; exact h7.2⟩
  omega

theorem expand_eq (h : Hkdf) (a : Alg) (secret : Str) (label : String) (len : Nat) (hl : (ascii label).length ≤ 249) (hn : len < 65536) :
    expandLabel h a secret (ascii label) len = derive h (md a) secret label len := by
  simp only [expandLabel, derive, info_eq _ _ hl hn]

theorem params (a : Alg) : Params a (md a) (keyLen a) := by cases a <;> constructor

theorem params_md {a : Alg} {m : Md} {n : Nat} (h : Params a m n) : m = md a ∧ n = keyLen a := by
  cases h <;> exact ⟨rfl, rfl⟩

theorem keyLen_lt (a : Alg) : keyLen a < 65536 := by cases a <;> decide
theorem nonceLen_eq (a : Alg) : nonceLen a = 12 := by cases a <;> rfl

theorem pktKey_eq (h : Hkdf) (a : Alg) (s : Str) : pktKey h a s = derive h (md a) s "quic key" (keyLen a) :=
  expand_eq _ _ _ _ _ (by decide +kernel) (keyLen_lt a)
theorem pktIv_eq (h : Hkdf) (a : Alg) (s : Str) : pktIv h a s = derive h (md a) s "quic iv" 12 := by
  rw [pktIv, nonceLen_eq]
  exact expand_eq _ _ _ _ _ (by decide +kernel) (by decide)
theorem hdrKey_eq (h : Hkdf) (a : Alg) (s : Str) : hdrKey h a s = derive h (md a) s "quic hp" (keyLen a) :=
  expand_eq _ _ _ _ _ (by decide +kernel) (keyLen_lt a)

theorem make_iff (h : Hkdf) (a : Alg) (s : Str) (k : Keys) (reset : Bool) :
    (if reset then fromSecret h a else fresh h a) s = some k ↔ Rfc h a s k ∧ k.primed = reset := by
  constructor
  · intro hk
    cases reset
    · simp only [Bool.false_eq_true, if_false, fresh] at hk
      repeat' split at hk
      all_goals first | (simp only [Option.some.injEq] at hk; subst hk) | simp at hk
      rename_i key h1 _ iv h2 _ hp h3
      rw [pktKey_eq] at h1; rw [pktIv_eq] at h2; rw [hdrKey_eq] at h3
      exact ⟨⟨_, _, params a, rfl, rfl, h1, h2, h3⟩, rfl⟩
    · simp only [if_true, fromSecret, packetKey] at hk
      repeat' split at hk
      all_goals first | (simp only [Option.some.injEq] at hk; subst hk) | simp at hk
      rename_i hp h3 _ key iv h4
      split at h4
      · simp at h4
      · split at h4
        · simp at h4
        · rename_i h1 _ _ h2
          simp only [Option.some.injEq, Prod.mk.injEq] at h4
          obtain ⟨rfl, rfl⟩ := h4
          rw [pktKey_eq] at h1; rw [pktIv_eq] at h2; rw [hdrKey_eq] at h3
          exact ⟨⟨_, _, params a, rfl, rfl, h1, h2, h3⟩, rfl⟩
  · rintro ⟨⟨m, n, hp, h1, h2, h3, h4, h5⟩, h6⟩
    obtain ⟨rfl, rfl⟩ := params_md hp
    rw [← pktKey_eq] at h3; rw [← pktIv_eq] at h4; rw [← hdrKey_eq] at h5
    cases k
    simp only at h1 h2 h3 h4 h5 h6
    subst h1 h2 h6
    cases ‹Bool› <;> simp [fresh, fromSecret, packetKey, h3, h4, h5]

/-- Keys made from a secret of the TLS library are those of RFC 9001, for every cipher suite; they are
made exactly if HKDF gives them. -/
theorem secret (h : Hkdf) (a : Alg) (s : Str) (k : Keys) : fromSecret h a s = some k ↔ Rfc h a s k ∧ k.primed = true := by
  have := make_iff h a s k true
  simpa using this

/-- The keys for Initial packets are those of RFC 9001: a server opens what a client seals, and the
other way round; whether it is the first time or after a Retry or Version Negotiation. -/
theorem initial_keys (h : Hkdf) (cid : Str) (version : Nat) (isServer didReset : Bool) (o s : Keys) :
    initial h cid version isServer didReset = some (o, s) ↔
      ∃ client server, InitialSecrets h cid client server ∧
        Rfc h .aes128 (if isServer then client else server) o ∧ Rfc h .aes128 (if isServer then server else client) s ∧
        o.primed = didReset ∧ s.primed = didReset := by
  have e1 : ∀ prk, expandLabel h .aes128 prk (ascii "client in") 32 = derive h .sha256 prk "client in" 32 :=
    fun prk => expand_eq h .aes128 prk "client in" 32 (by decide +kernel) (by decide)
  have e2 : ∀ prk, expandLabel h .aes128 prk (ascii "server in") 32 = derive h .sha256 prk "server in" 32 :=
    fun prk => expand_eq h .aes128 prk "server in" 32 (by decide +kernel) (by decide)
  constructor
  · intro hi
    simp only [initial] at hi
    rcases h1 : initialSecret h cid version with _ | prk
    · simp [h1] at hi
    rcases h2 : expandLabel h .aes128 prk (ascii "client in") 32 with _ | c
    · simp [h1, h2] at hi
    rcases h3 : expandLabel h .aes128 prk (ascii "server in") 32 with _ | sv
    · simp [h1, h2, h3] at hi
    simp only [h1, h2, h3] at hi
    rcases h4 : (if didReset then fromSecret h .aes128 else fresh h .aes128) c with _ | kc
    · simp [h4] at hi
    rcases h5 : (if didReset then fromSecret h .aes128 else fresh h .aes128) sv with _ | ks
    · simp [h4, h5] at hi
    simp only [h4, h5] at hi
    obtain ⟨r1, p1⟩ := (make_iff ..).1 h4
    obtain ⟨r2, p2⟩ := (make_iff ..).1 h5
    rw [e1] at h2
    rw [e2] at h3
    refine ⟨c, sv, ⟨prk, h1, h2, h3⟩, ?_⟩
    cases isServer
    · simp only [Bool.false_eq_true, if_false, Option.some.injEq, Prod.mk.injEq] at hi
      obtain ⟨rfl, rfl⟩ := hi
      exact ⟨r2, r1, p2, p1⟩
    · simp only [if_true, Option.some.injEq, Prod.mk.injEq] at hi
      obtain ⟨rfl, rfl⟩ := hi
      exact ⟨r1, r2, p1, p2⟩
  · rintro ⟨c, sv, ⟨prk, h1, h2, h3⟩, r1, r2, p1, p2⟩
    have h1' : initialSecret h cid version = some prk := h1
    rw [← e1] at h2
    rw [← e2] at h3
    simp only [initial, h1', h2, h3]
    cases isServer
    · simp only [Bool.false_eq_true, if_false] at r1 r2
      rw [(make_iff h .aes128 c s didReset).2 ⟨r2, p2⟩, (make_iff h .aes128 sv o didReset).2 ⟨r1, p1⟩]
      simp
    · simp only [if_true] at r1 r2
      rw [(make_iff h .aes128 c o didReset).2 ⟨r1, p1⟩, (make_iff h .aes128 sv s didReset).2 ⟨r2, p2⟩]
      simp

/-- The same keys. -/
def Same (a b : Keys) : Prop := a.alg = b.alg ∧ a.secret = b.secret ∧ a.hp = b.hp ∧ a.key = b.key ∧ a.iv = b.iv

theorem rfc_same {h : Hkdf} {a : Alg} {s : Str} {k k' : Keys} (r : Rfc h a s k) (r' : Rfc h a s k') : Same k k' := by
  obtain ⟨m, n, hp, h1, h2, h3, h4, h5⟩ := r
  obtain ⟨m', n', hp', h1', h2', h3', h4', h5'⟩ := r'
  obtain ⟨rfl, rfl⟩ := params_md hp
  obtain ⟨rfl, rfl⟩ := params_md hp'
  rw [h3] at h3'; rw [h4] at h4'; rw [h5] at h5'
  simp only [Option.some.injEq] at h3' h4' h5'
  exact ⟨h1.trans h1'.symm, h2.trans h2'.symm, h5', h3', h4'⟩

/-- A client and a server with the same connection ID can read each other's Initial packets, whatever
version either has and whether or not the client was sent a Retry. -/
theorem mirror (h : Hkdf) (cid : Str) (v v' : Nat) (r r' : Bool) (o s o' s' : Keys)
    (hc : initial h cid v false r = some (o, s)) (hs : initial h cid v' true r' = some (o', s')) : Same s o' ∧ Same s' o := by
  obtain ⟨c1, s1, ⟨p1, x1, y1, z1⟩, a1, b1, _⟩ := (initial_keys ..).1 hc
  obtain ⟨c2, s2, ⟨p2, x2, y2, z2⟩, a2, b2, _⟩ := (initial_keys ..).1 hs
  rw [x1] at x2
  simp only [Option.some.injEq] at x2
  subst x2
  rw [y1] at y2
  rw [z1] at z2
  simp only [Option.some.injEq] at y2 z2
  subst y2 z2
  exact ⟨rfc_same b1 a2, rfc_same b2 a1⟩

/-! ### Key update -/

/-- Keys after a number of updates. -/
def gen (h : Hkdf) (k : Keys) : Nat → Option Keys
  | 0 => some k
  | n + 1 => (gen h k n).bind (Keys.next h)

/-- Secrets after a number of updates (RFC 9001, 6.1). -/
def genSecret (h : Hkdf) (m : Md) (s : Str) : Nat → Option Str
  | 0 => some s
  | n + 1 => (genSecret h m s n).bind fun s => derive h m s "quic ku" s.length

/-- After any number of updates: secret, key and IV are those of RFC 9001, and the key for header
protection is still the first one. -/
theorem update (h : Hkdf) (k : Keys) (m : Md) (n : Nat) (hp : Params k.alg m n) (hlen : ∀ g s, genSecret h m k.secret g = some s → s.length < 65536)
    (g : Nat) (k' : Keys) (hk : gen h k g = some k') :
    k'.alg = k.alg ∧ k'.hp = k.hp ∧ genSecret h m k.secret g = some k'.secret ∧
      (g ≠ 0 → derive h m k'.secret "quic key" n = some k'.key ∧ derive h m k'.secret "quic iv" 12 = some k'.iv) := by
  obtain ⟨rfl, rfl⟩ := params_md hp
  induction g generalizing k' with
  | zero =>
    simp only [gen, Option.some.injEq] at hk
    subst hk
    exact ⟨rfl, rfl, rfl, by simp⟩
  | succ g ih =>
    simp only [gen, Option.bind_eq_some_iff] at hk
    obtain ⟨k1, hk1, hn⟩ := hk
    obtain ⟨i1, i2, i3, _⟩ := ih k1 hk1
    have hl := hlen g _ i3
    simp only [Keys.next] at hn
    rcases hs : nextSecret h k1.alg k1.secret with _ | s
    · simp [hs] at hn
    simp only [hs, packetKey] at hn
    rcases h1 : pktKey h k1.alg s with _ | key
    · simp [h1] at hn
    rcases h2 : pktIv h k1.alg s with _ | iv
    · simp [h1, h2] at hn
    simp only [h1, h2, Option.some.injEq] at hn
    subst hn
    have hs' : derive h (md k.alg) k1.secret "quic ku" k1.secret.length = some s := by
      rw [← i1, ← hs]
      exact (expand_eq h k1.alg k1.secret "quic ku" _ (by decide +kernel) hl).symm
    rw [pktKey_eq, i1] at h1
    rw [pktIv_eq, i1] at h2
    exact ⟨i1, i2, by simp only [genSecret, i3, Option.bind_some, hs'], fun _ => ⟨h1, h2⟩⟩

/-- Endpoints that begin with the same secret have the same keys after the same number of updates. -/
theorem update_same (h : Hkdf) (a b : Keys) (hab : Same a b) (g : Nat) (a' b' : Keys) (ha : gen h a g = some a') (hb : gen h b g = some b') :
    Same a' b' := by
  induction g generalizing a' b' with
  | zero =>
    simp only [gen, Option.some.injEq] at ha hb
    subst ha hb
    exact hab
  | succ g ih =>
    simp only [gen, Option.bind_eq_some_iff] at ha hb
    obtain ⟨a1, ha1, ha⟩ := ha
    obtain ⟨b1, hb1, hb⟩ := hb
    obtain ⟨e1, e2, e3, _, _⟩ := ih a1 b1 ha1 hb1
    simp only [Keys.next, e1, e2] at ha
    simp only [Keys.next] at hb
    rcases hs : nextSecret h b1.alg b1.secret with _ | s
    · simp [hs] at hb
    rcases hp : packetKey h b1.alg s with _ | ⟨key, iv⟩
    · simp [hs, hp] at hb
    simp only [hs, hp, Option.some.injEq] at ha hb
    subst ha hb
    exact ⟨rfl, rfl, e3, rfl, rfl⟩

/-! ### Sealing -/

/-- The first packet is one with the keys for Initial packets. -/
def Starts : List Op → Prop
  | [] => True
  | .install _ _ :: l => Starts l
  | .send 0 _ :: _ => True
  | _ :: _ => False

/-- A key that has sealed packet 0, or stands as if it had. -/
def Ready (next : Nat) (k : K) : Prop := k.ctx.strict = true → k.ctx.first = false ∧ k.ctx.mask = k.iv ∧ k.ctx.minNext ≤ next

theorem primed_ready (a : Alg) (iv next : Nat) (hn : 1 ≤ next) : Ready next (K.primed a iv) := by
  intro hs
  cases a <;> simp_all [K.primed, Ctx.new, Ctx.encrypt]

theorem ready_mono {k : K} {n m : Nat} (h : Ready n k) (hm : n ≤ m) : Ready m k :=
  fun hs => ⟨(h hs).1, (h hs).2.1, Nat.le_trans (h hs).2.2 hm⟩

theorem ready_seals {k : K} {n : Nat} (h : Ready n k) (hn : n < 2 ^ 64 - 1) :
    (k.ctx.encrypt k.iv n).1 = true ∧ Ready (n + 1) { k with ctx := (k.ctx.encrypt k.iv n).2 } := by
  cases hs : k.ctx.strict
  · simp only [Ctx.encrypt, hs, Bool.false_eq_true, if_false, true_and]
    intro h'
    simp [hs] at h'
  · obtain ⟨h1, h2, h3⟩ := h hs
    have hx : k.iv ^^^ n ^^^ k.iv = n := by rw [Nat.xor_comm, ← Nat.xor_assoc, Nat.xor_self, Nat.zero_xor]
    simp only [Ctx.encrypt, hs, h1, if_true, Bool.false_eq_true, if_false, h2, hx]
    rw [if_neg (by omega)]
    exact ⟨rfl, fun _ => ⟨rfl, rfl, Nat.le_refl _⟩⟩

/-- All packets could be sealed, and from now on all can. -/
def All (s : S) : Prop := s.failed = 0 ∧ 1 ≤ s.next ∧ ∀ k ∈ s.ks, Ready s.next k

theorem mem_set {l : List K} {i : Nat} {k x : K} (h : x ∈ l.set i k) : x ∈ l ∨ x = k := by
  rcases List.mem_or_eq_of_mem_set h with h | h
  · exact .inl h
  · exact .inr h

theorem all_step {s : S} (h : All s) (hn : s.next < 2 ^ 64 - 1) (op : Op) : All (s.step op) ∧ (s.step op).next ≤ s.next + 1 := by
  obtain ⟨h1, h2, h3⟩ := h
  cases op with
  | install a iv =>
    refine ⟨⟨h1, h2, ?_⟩, Nat.le_succ _⟩
    intro k hk
    simp only [S.step, List.mem_append, List.mem_singleton] at hk
    rcases hk with hk | rfl
    · exact h3 k hk
    · exact primed_ready _ _ _ h2
  | replace i a iv =>
    refine ⟨⟨h1, h2, ?_⟩, Nat.le_succ _⟩
    intro k hk
    rcases mem_set hk with hk | rfl
    · exact h3 k hk
    · exact primed_ready _ _ _ h2
  | skip =>
    simp only [S.step]
    split
    · exact ⟨⟨h1, h2, h3⟩, Nat.le_succ _⟩
    · exact ⟨⟨h1, Nat.le_succ_of_le h2, fun k hk => ready_mono (h3 k hk) (Nat.le_succ _)⟩, Nat.le_refl _⟩
  | send i close =>
    simp only [S.step, S.send]
    split
    · exact ⟨⟨h1, h2, h3⟩, Nat.le_succ _⟩
    · rcases hk : s.ks[i]? with _ | k
      · exact ⟨⟨h1, h2, h3⟩, Nat.le_succ _⟩
      · have hm : k ∈ s.ks := List.mem_of_getElem? hk
        obtain ⟨hb, hr⟩ := ready_seals (h3 k hm) hn
        rcases he : k.ctx.encrypt k.iv s.next with ⟨b, c⟩
        rw [he] at hb hr
        simp only at hb hr
        subst hb
        simp only [he]
        refine ⟨⟨h1, Nat.le_succ_of_le h2, ?_⟩, Nat.le_refl _⟩
        intro x hx
        rcases mem_set hx with hx | rfl
        · exact ready_mono (h3 x hx) (Nat.le_succ _)
        · exact hr

theorem all_run (l : List Op) : ∀ {s : S}, All s → s.next + l.length < 2 ^ 64 → All (s.run l) := by
  induction l with
  | nil => intro s h _; exact h
  | cons op l ih =>
    intro s h hn
    simp only [List.length_cons] at hn
    obtain ⟨h1, h2⟩ := all_step h (by omega) op
    exact ih h1 (by omega)

/-- Before the first packet. -/
structure Begin (s : S) : Prop where
  next : s.next = 0
  failed : s.failed = 0
  draining : s.draining = false
  keys : ∃ iv rest, s.ks = K.fresh .aes128 iv :: rest ∧ ∀ k ∈ rest, Ready 1 k

/-- If the first packet of a connection is an Initial packet, which takes packet number 0, every packet
can be sealed, with whatever keys, through any number of key updates, Retry and Version Negotiation,
and with packet numbers left out. -/
theorem sealed_partial (l : List Op) : ∀ {s : S}, Begin s → Starts l → l.length < 2 ^ 64 → (s.run l).failed = 0 := by
  induction l with
  | nil => intro s h _ _; exact h.failed
  | cons op l ih =>
    intro s h hst hn
    simp only [List.length_cons] at hn
    obtain ⟨b1, b2, b3, iv, rest, b4, b5⟩ := h
    cases op with
    | install a iv' =>
      apply ih (s := s.step (.install a iv')) _ hst (by omega)
      refine ⟨b1, b2, b3, iv, rest ++ [K.primed a iv'], by simp [S.step, b4], ?_⟩
      intro k hk
      simp only [List.mem_append, List.mem_singleton] at hk
      rcases hk with hk | rfl
      · exact b5 k hk
      · exact primed_ready _ _ _ (Nat.le_refl _)
    | replace i a iv' => exact absurd hst (by simp [Starts])
    | skip => exact absurd hst (by simp [Starts])
    | send i close =>
      cases i with
      | succ i => exact absurd hst (by simp [Starts])
      | zero =>
        have ha : All (s.step (.send 0 close)) := by
          simp only [S.step, S.send, b3, b4, Bool.false_eq_true, if_false, List.getElem?_cons_zero, b1]
          simp only [K.fresh, Ctx.new, Ctx.encrypt]
          simp only [decide_true, ne_eq, reduceCtorEq, not_false_eq_true, if_true, Nat.xor_zero, Nat.xor_self]
          rw [if_neg (by decide)]
          refine ⟨b2, Nat.le_refl _, ?_⟩
          intro k hk
          simp only [List.set_cons_zero, List.mem_cons] at hk
          rcases hk with rfl | hk
          · exact fun _ => ⟨rfl, rfl, Nat.le_refl _⟩
          · exact b5 k hk
        have hx : (s.step (.send 0 close)).next = 1 := by
          simp only [S.step, S.send, b3, b4, Bool.false_eq_true, if_false, List.getElem?_cons_zero, b1]
          simp only [K.fresh, Ctx.new, Ctx.encrypt]
          simp only [decide_true, ne_eq, reduceCtorEq, not_false_eq_true, if_true, Nat.xor_zero, Nat.xor_self]
          rw [if_neg (by decide)]
        exact (all_run l ha (by omega)).1

theorem new_begin (iv : Nat) : Begin (S.new iv) := ⟨rfl, rfl, rfl, iv, [], rfl, by simp⟩

/-- Every packet has a number of its own, larger than those before, with whatever keys. -/
theorem numbers (l : List Op) : ∀ {s : S}, (∀ p ∈ s.sent, p.1 < s.next) → s.sent.Pairwise (fun a b => b.1 < a.1) →
    (∀ p ∈ (s.run l).sent, p.1 < (s.run l).next) ∧ (s.run l).sent.Pairwise (fun a b => b.1 < a.1) := by
  induction l with
  | nil => intro s h1 h2; exact ⟨h1, h2⟩
  | cons op l ih =>
    intro s h1 h2
    have hs : (∀ p ∈ (s.step op).sent, p.1 < (s.step op).next) ∧ (s.step op).sent.Pairwise (fun a b => b.1 < a.1) := by
      cases op with
      | install => exact ⟨h1, h2⟩
      | replace => exact ⟨h1, h2⟩
      | skip =>
        simp only [S.step]
        split
        · exact ⟨h1, h2⟩
        · exact ⟨fun p hp => Nat.lt_succ_of_lt (h1 p hp), h2⟩
      | send i close =>
        simp only [S.step, S.send]
        split
        · exact ⟨h1, h2⟩
        · split
          · exact ⟨h1, h2⟩
          · split
            · exact ⟨h1, h2⟩
            · refine ⟨?_, ?_⟩
              · intro p hp
                simp only [List.mem_cons] at hp
                rcases hp with rfl | hp
                · exact Nat.lt_succ_self _
                · exact Nat.lt_succ_of_lt (h1 p hp)
              · simp only [List.pairwise_cons]
                exact ⟨fun p hp => h1 p hp, h2⟩
    exact ih hs.1 hs.2

theorem draining_run (l : List Op) : ∀ {s : S}, s.draining = true → (s.run l).sent = s.sent := by
  induction l with
  | nil => intro s _; rfl
  | cons op l ih =>
    intro s h
    have hs : (s.step op).draining = true ∧ (s.step op).sent = s.sent := by
      cases op with
      | install => exact ⟨h, rfl⟩
      | replace => exact ⟨h, rfl⟩
      | skip => simp only [S.step]; split <;> exact ⟨h, rfl⟩
      | send i close => simp [S.step, S.send, h]
    rw [show s.run (op :: l) = (s.step op).run l from rfl, ih hs.1, hs.2]

/-- A server has read a client's first packet, and has keys for Handshake packets with AES; the
application closes the connection before any packet is sent. CONNECTION_CLOSE is to go into a Handshake
packet, and its number is 0; that packet cannot be sealed, `send` gives an error, and the connection is
draining: whatever happens afterwards, the peer is never told. -/
theorem close_false (iv iv1 iv2 : Nat) (a : Alg) (ha : a ≠ .chacha) (initialKeys : Bool) (l : List Op) :
    closeSpace .oneRtt false initialKeys = some .handshake ∧
    let s := (S.new iv).run [.install a iv1, .install a iv2, .send 1 true]
    s.failed = 1 ∧ (s.run l).sent = [] := by
  refine ⟨rfl, ?_⟩
  have hd : ((S.new iv).run [.install a iv1, .install a iv2, .send 1 true]).draining = true ∧
      ((S.new iv).run [.install a iv1, .install a iv2, .send 1 true]).sent = [] ∧
      ((S.new iv).run [.install a iv1, .install a iv2, .send 1 true]).failed = 1 := by
    cases a <;> first | exact absurd rfl ha | simp [S.run, S.step, S.send, S.new, K.primed, Ctx.new, Ctx.encrypt]
  exact ⟨hd.2.2, by rw [draining_run l hd.1]; exact hd.2.1⟩

/-- Once a key has sealed a packet, it does not seal that packet number or an earlier one again. -/
theorem once {k : K} {n p : Nat} (hs : k.ctx.strict = true) (h : k.ctx.first = false ∧ k.ctx.mask = k.iv ∧ k.ctx.minNext = n + 1) (hp : p ≤ n) :
    (k.ctx.encrypt k.iv p).1 = false := by
  obtain ⟨h1, h2, h3⟩ := h
  have hx : k.iv ^^^ p ^^^ k.iv = p := by rw [Nat.xor_comm, ← Nat.xor_assoc, Nat.xor_self, Nat.zero_xor]
  simp only [Ctx.encrypt, hs, h1, if_true, Bool.false_eq_true, if_false, h2, hx, h3]
  rw [if_pos (by omega)]

/-- Priming is needed: a fresh key used first for packet 2 refuses packet 6 after packet 5. -/
example :
    let c := ((Ctx.new .aes128).encrypt 7 2).2
    let c := (c.encrypt 7 5).2
    (c.encrypt 7 6).1 = false := by decide +kernel

/-- A connection: Initial, Handshake and 1-RTT packets, a key update, a packet number left out. -/
example :
    ((S.new 5).run [.install .aes256 9, .install .aes256 3, .send 0 false, .send 1 false, .send 2 false, .skip, .send 0 false,
      .replace 2 .aes256 77, .send 2 false, .send 2 true]).sent = [(6, 2), (5, 2), (4, 0), (2, 2), (1, 1), (0, 0)] := by decide +kernel
/-- With ChaCha20 the packet of `close_false` is sent. -/
example : ((S.new 5).run [.install .chacha 9, .send 1 true]).sent = [(0, 1)] := by decide +kernel

/-- A stand-in for HKDF. -/
def toy : Hkdf := { extract := fun _ s c => some (s ++ c), expand := fun _ s i n => some ((s ++ i).take n) }
example : (initial toy [1] 1 true false).isSome = true ∧ (initial toy [1] 1 false true).isSome = true := by decide +kernel
example : hkdfLabel 16 (ascii "quic key") [] =
    [0, 16, 14, 116, 108, 115, 49, 51, 32, 113, 117, 105, 99, 32, 107, 101, 121, 0] := by decide +kernel

end Verif.Props.C181
