import Verif.H3.Run

/-! What the application is told in an execution. -/

namespace Verif.H3
open Verif

/-- The results of the calls of `poll`, in order. -/
def W.polls (w : W) : List Act → List Res
  | [] => []
  | .poll spare rs :: l => (w.c.poll spare (rs.filter w.used)).1 :: W.polls (w.step (.poll spare rs)) l
  | a :: l => W.polls (w.step a) l

end Verif.H3
