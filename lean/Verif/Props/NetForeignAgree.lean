import Verif.Props.NetForeign
import Verif.Props.ForeignAgree
/-!
# C137: clients and router agree, whatever bytes others write
-/
namespace Wamp.Net
open Wamp Wamp.System Wamp.Spec Wamp.Session

variable {w : Str → Str → Bool} {k : Nat → Kind} {F : Nat → Bool}

/-- **C137** When a client of this library has read all bytes of the router, its `Session` accepts the EVENTs of exactly the subscriptions that it has at the
broker. -/
theorem C137_subscriptions_agree {n : Net} (h : OpenRun w k F n) (hb : n.core.bh.length < 2 ^ 53) (s : Nat) (hF : F s = false) (hf : Fresh n.core s)
    (hs : Stays n.core s) (hd : n.ReadAll s) (i p : Nat) (d : GoMap) (a : GoSlice) (kw : GoMap) :
    Accepts (n.core.client s) (.event i p d a kw) ↔ ∃ t, Broker.current n.core.bh s t = some i := by
  obtain ⟨l, hl, ha⟩ := open_at h
  rw [← ha.sim.client, ← ha.sim.bh]
  exact C131_subscriptions_agree hl (by rwa [ha.sim.bh]) s hF (ha.fresh hf) (ha.stays.2 hs) (ha.down hF hd) i p d a kw

/-- **C137** … and the INVOCATIONs of exactly the registrations that the router has given it and that it has not given up since. -/
theorem C137_registrations_agree {n : Net} (h : OpenRun w k F n) (hb : n.core.bh.length < 2 ^ 53) (s : Nat) (hF : F s = false) (hf : Fresh n.core s)
    (hs : Stays n.core s) (hd : n.ReadAll s) (i g : Nat) (d : GoMap) (a : GoSlice) (kw : GoMap) (bin : Bin) :
    Accepts (n.core.client s) (.invocation i g d a kw bin) ↔ ∃ p, Dealer.holds n.core.dh s p g := by
  obtain ⟨l, hl, ha⟩ := open_at h
  rw [← ha.sim.client, ← ha.sim.dh]
  exact C131_registrations_agree hl (by rwa [ha.sim.bh]) s hF (ha.fresh hf) (ha.stays.2 hs) (ha.down hF hd) i g d a kw bin

/-- The state of the example in Props/NetForeign, in which client 3 writes junk: client 1 is subscribed to "t", and knows it. -/
example : let n := openAfter siege
    OpenRun Dealer.noWild mixed third n ∧ n.core.bh.length < 2 ^ 53 ∧ third 1 = false ∧ Fresh n.core 1 ∧ Stays n.core 1 ∧ n.ReadAll 1 ∧
      Broker.current n.core.bh 1 (str "t") = some 1 ∧ (n.core.client 1 .subscriptions 1).isSome = true :=
  ⟨run_openAfter _, by decide +kernel, rfl, by unfold Fresh; decide +kernel, stays_of (by decide +kernel), ⟨by decide +kernel, by decide +kernel⟩, by decide +kernel,
    by decide +kernel⟩

end Wamp.Net
