import Verif.Props.NetComplete
import Verif.Props.AgreeRegs
/-!
# C120 over byte streams
-/
namespace Wamp.Net
open Wamp Wamp.System Wamp.Spec Wamp.Session

variable {w : Str → Str → Bool} {k : Nat → Kind}

/-- **C120** When a client has read all bytes of the router, its `Session` accepts the INVOCATIONs of exactly the registrations that the router
has given it and that it has not given up since. -/
theorem C120_over_bytes {n : Net} (h : Run w k n) (s : Nat) (hf : Fresh n.core s) (hs : Stays n.core s) (hd : n.ReadAll s)
    (i g : Nat) (d : GoMap) (a : GoSlice) (kw : GoMap) (bin : Bin) :
    Accepts (n.core.client s) (.invocation i g d a kw bin) ↔ ∃ p, Dealer.holds n.core.dh s p g := by
  obtain ⟨l, hl, ha⟩ := run_at h
  rw [← ha.sim.client, ← ha.sim.dh]
  exact C120_registrations_agree (log_sys hl) s (fresh_sim ha.sim hf) (ha.stays.2 hs) (ha.down hd) i g d a kw bin

/-- Session 1 subscribes and registers "p"; it unregisters and registers "q". -/
def swap : List Cmd :=
  outBegin ++ [.send 1 (.unregister 4 1), .send 1 (newRegister 5 none (str "q")), .up 1 1000, .route 1, .route 1, .down 1 1000, .deliver 1, .deliver 1]

example : let n := after swap
    Run Dealer.noWild mixed n ∧ Fresh n.core 1 ∧ Stays n.core 1 ∧ n.ReadAll 1 ∧ Dealer.owner n.core.dh (str "p") = none ∧
      Dealer.owner n.core.dh (str "q") = some (1, 2) ∧ (n.core.client 1 .registrations 1).isSome = false ∧ (n.core.client 1 .registrations 2).isSome = true :=
  ⟨run_after _, by unfold Fresh; decide +kernel, stays_of (by decide +kernel), ⟨by decide +kernel, by decide +kernel⟩, by decide +kernel, by decide +kernel,
    by decide +kernel, by decide +kernel⟩

end Wamp.Net
