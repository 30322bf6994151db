import Verif.Bbr.RunInv

/-!
Sample values for the examples about BBR: gains in thousandths in place of floats, and a path
on which each flight of packets is acknowledged one round trip later.
-/

namespace Verif.Bbr

/-- Gains in thousandths, by their bit patterns. -/
def thousandths (g : Nat) : Nat :=
  if g = 0x40000000 then 2000 else if g = 0x403178d5 then 2773 else if g = 0x3fa00000 then 1250 else if g = 0x3eb1783c then 347
  else if g = one then 1000 else if g = 0x3f666666 then 900 else if g = 0x40100000 then 2250 else if g = 0x3f000000 then 500
  else if g = 0x3e19999a then 150 else if g = 0x3c75c28f then 15 else if g = 0x3e99999a then 300 else if g = 0x3fe00000 then 1750
  else if g = 0x3f333333 then 700 else 2885

/-- Sample arithmetic for the default parameters. -/
def Floats.sample : Floats where
  mulBw b g := b * thousandths g / 1000
  part b g := b * thousandths g / 1000
  comp _ := 0x3f333333
  quot _ _ := one
  rest _ _ := one
  reno g b := b * thousandths g / 1000 / 1300

/-- Packets of 1200 bytes sent at once, after some in flight. -/
def burst (now inFlight pn : Nat) : Nat → List BOp
  | 0 => []
  | k + 1 => .sent now inFlight pn 1200 true :: burst now (inFlight + 1200) (pn + 1) k

/-- A flight of packets and its acknowledgement. -/
def flight (now rtt pn k : Nat) : List BOp := burst now 0 pn k ++ [.event (now + rtt) (k * 1200) ((List.range k).map (pn + ·)) [] (pn + k)]

/-- Flights one after the other. -/
def flights (now rtt pn k : Nat) : Nat → List BOp
  | 0 => []
  | m + 1 => flight now rtt pn k ++ flights (now + rtt) rtt (pn + k) k m

/-- A flight with every other packet lost, and two more packets. -/
def lossy : List BOp :=
  flight 0 50000000 0 10 ++ burst 50000000 0 10 20 ++
    (List.range 10).map (fun i => .event (100000000 + i) (24000 - 2400 * i) [10 + 2 * i] [⟨11 + 2 * i, 1200⟩] 0) ++ burst 100000010 0 30 2

/-- A controller at its start: 10 packets of 1200 bytes, a round trip of 50 ms. -/
def Bbr.sample : Bbr := .new .sample .default 10 10000 1200 50000000 0 2885

instance decNumbered : ∀ (n : Nat) (ops : List BOp), Decidable (Numbered n ops)
  | _, [] => isTrue trivial
  | n, .sent _ _ pn _ _ :: l => @instDecidableAnd _ _ _ (decNumbered (pn + 1) l)
  | n, .event _ _ _ _ _ :: l => decNumbered n l
  | n, .neutered _ :: l => decNumbered n l
  | n, .appLimited _ :: l => decNumbered n l
  | n, .mss _ _ :: l => decNumbered n l
  | n, .limit _ :: l => decNumbered n l

instance decFits (F : Floats) (p : Params) : ∀ (b : Bbr) (ops : List BOp), Decidable (Fits F p b ops)
  | _, [] => isTrue trivial
  | b, op :: l => @instDecidableAnd _ _ (by cases op <;> infer_instance) (decFits F p (b.step F p op) l)

end Verif.Bbr
