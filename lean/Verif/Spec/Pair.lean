import Verif.Spec.Delivery
/-
Two clients that are connected with each other, in one order of time.
-/
namespace SIO.Spec

/-- Two clients take turns in any order.  At any time each of them has received, after an open packet and with
control frames in between, only what the other one has written by then. -/
inductive Joint (cfgA cfgB : RCfg) (oA oB : Ws) : Sys → List Ev → Sys → List Ev → Prop where
  | start : Joint cfgA cfgB oA oB Sys.init [] Sys.init []
  | left {sA sB sA' : Sys} {tA tB evs : List Ev} {a : Act} : Joint cfgA cfgB oA oB sA tA sB tB →
      step cfgA sA a = some (sA', evs) → dataOf (inbox (tA ++ evs)) <+: oA :: written tB →
      Joint cfgA cfgB oA oB sA' (tA ++ evs) sB tB
  | right {sA sB sB' : Sys} {tA tB evs : List Ev} {b : Act} : Joint cfgA cfgB oA oB sA tA sB tB →
      step cfgB sB b = some (sB', evs) → dataOf (inbox (tB ++ evs)) <+: oB :: written tA →
      Joint cfgA cfgB oA oB sA tA sB' (tB ++ evs)

end SIO.Spec
