import Verif.Model.Dealer
/-!
# Histories of a dealer, and who is registered for what after one

Everything here is defined from the calls made and their results only.
-/
namespace Wamp.Dealer

/-- A finished call and its result. -/
structure Event where
  op : Op
  res : Res Out

/-- `Hist w h b`: the calls `h` (newest first) were made one after the other on a new dealer, none of them panicked, and the dealer is now
in state `b`. -/
inductive Hist (w : Str → Str → Bool) : List Event → State → Prop where
  | new : Hist w [] init
  | step {h b} (op : Op) : Hist w h b → (step w b op).2 ≠ .panic → Hist w (⟨op, (step w b op).2⟩ :: h) (step w b op).1

/-- The details of a session that was added and not removed since. -/
def session : List Event → Nat → Option SessionDetails
  | [], _ => none
  | ⟨.add d, .ok _⟩ :: h, s => if d.id = s then some d else session h s
  | ⟨.remove s' _, .ok _⟩ :: h, s => if s' = s then none else session h s
  | _ :: h, s => session h s

/-- The session was added and not removed since. -/
def attached (h : List Event) (s : Nat) : Prop := (session h s).isSome = true

/-- `AutoDiscloseCaller` was last called with `true`. -/
def disclosed : List Event → Bool
  | [] => false
  | ⟨.disclose on, _⟩ :: _ => on
  | _ :: h => disclosed h

/-! ### Calls and answers -/

/-- A CALL from `c` with request ID `r` (and these options). -/
def isCall (c r : Nat) (o : GoMap) (e : Event) : Prop := ∃ p a k bin order rnd, e.op = .receive c (.call r o p a k bin) order rnd

/-- A CALL from `c` with request ID `r` that was turned into INVOCATION `i` for session `callee`. -/
def invoked (c r i callee : Nat) (e : Event) : Prop :=
  ∃ o p a k bin order rnd rid d a' k' bin',
    e = ⟨.receive c (.call r o p a k bin) order rnd, .ok (.msg (.invocation i rid d a' k' bin') callee)⟩

/-- A REGISTER from `s` for `p` that was answered with registration ID `i`. -/
def registeredAs (s : Nat) (p : Str) (i : Nat) (e : Event) : Prop :=
  ∃ q o order rnd q' s', e = ⟨.receive s (.register q o p) order rnd, .ok (.msg (.registered q' i) s')⟩

/-- Is this a CALL from `c` with request ID `r`? -/
def called (c r : Nat) (e : Event) : Bool :=
  match e.op with
  | .receive s (.call q _ _ _ _ _) _ _ => s == c && q == r
  | _ => false

/-- Did this send a final answer to request `r` of session `c`: a RESULT that is not progressive, or an ERROR in answer to a CALL? -/
def answered (c r : Nat) (e : Event) : Bool :=
  match e.res with
  | .ok (.msg (.result q d _ _ _) s) => s == c && q == r && !(d.flag (str "progress"))
  | .ok (.msg (.error t q _ _ _ _) s) => t == 48 && s == c && q == r
  | _ => false

/-- Is this a YIELD or an ERROR for invocation `i` (accepted or not)? -/
def answerFor (i : Nat) (e : Event) : Bool :=
  match e.op with
  | .receive _ (.yield j _ _ _ _) _ _ => j == i
  | .receive _ (.error t j _ _ _ _) _ _ => t == 68 && j == i
  | _ => false

/-- Was a final answer for invocation `i` forwarded here: a YIELD turned into a RESULT that is not progressive, or an ERROR? -/
def finalFor (i : Nat) (e : Event) : Bool :=
  answerFor i e &&
  match e.res with
  | .ok (.msg (.result _ d _ _ _) _) => !(d.flag (str "progress"))
  | .ok (.msg (.error ..) _) => true
  | _ => false

/-- The invocation ID of the last INVOCATION sent for request `r` of session `c`. -/
def lastInv : List Event → Nat → Nat → Option Nat
  | [], _, _ => none
  | ⟨.receive s (.call q _ _ _ _ _) _ _, .ok (.msg (.invocation i _ _ _ _ _) _)⟩ :: h, c, r =>
    if s = c ∧ q = r then some i else lastInv h c r
  | _ :: h, c, r => lastInv h c r

/-- No CALL of the request failed with an error. -/
def noErr (c r : Nat) (h : List Event) : Prop := ∀ e ∈ h, called c r e = true → e.res ≠ .err

/-! ### Registrations -/

/-- A registration as its users see it. -/
structure RegView where
  id : Nat
  policy : Str
  mtch : Str
  /-- in the order in which they registered -/
  members : List Nat
deriving DecidableEq

/-- What remains of a registration when `s` leaves. -/
def leave (s : Nat) (r : RegView) : Option RegView :=
  if r.members.filter (· ≠ s) = [] then none else some { r with members := r.members.filter (· ≠ s) }

/-- The present registration of procedure (or pattern) `p`: it begins when a REGISTER succeeds while there is none, with the `invoke` and
`match` options of that REGISTER; sessions join by REGISTER and leave by UNREGISTER of its ID or by being removed; it ends when the
last one leaves. -/
def regOf : List Event → Str → Option RegView
  | [], _ => none
  | ⟨.receive s (.register _ o p') _ _, .ok (.msg (.registered _ i) _)⟩ :: h, p =>
    if p' = p then
      match regOf h p with
      | none => some ⟨i, o.text (str "invoke"), o.text (str "match"), [s]⟩
      | some r => some { r with members := r.members ++ [s] }
    else regOf h p
  | ⟨.receive s (.unregister _ i) _ _, .ok _⟩ :: h, p =>
    (regOf h p).bind fun r => if r.id = i then leave s r else some r
  | ⟨.remove s _, .ok _⟩ :: h, p => (regOf h p).bind (leave s)
  | _ :: h, p => regOf h p

/-- The sessions registered for `p`. -/
def members (h : List Event) (p : Str) : List Nat := match regOf h p with | some r => r.members | none => []

/-- The sessions that were sent an INVOCATION for the present registration of `p` since that registration last changed, newest first. -/
def served : List Event → Str → List Nat
  | [], _ => []
  | e :: h, p =>
    if regOf (e :: h) p = regOf h p then
      match e.res with
      | .ok (.msg (.invocation _ i _ _ _ _) s) => if (regOf h p).map RegView.id = some i then s :: served h p else served h p
      | _ => served h p
    else []

/-- `p` was at some time registered as a prefix pattern. -/
def everPrefix : List Event → Str → Prop
  | [], _ => False
  | ⟨.receive _ (.register _ o p') _ _, .ok (.msg (.registered _ _) _)⟩ :: h, p =>
    (p' = p ∧ regOf h p = none ∧ o.text (str "match") = str "prefix") ∨ everPrefix h p
  | _ :: h, p => everPrefix h p

/-- No session was removed from the registration of `p` since that registration began. -/
def intact : List Event → Str → Prop
  | [], _ => False
  | ⟨.receive _ (.register _ _ p') _ _, .ok (.msg (.registered _ _) _)⟩ :: h, p => (p' = p ∧ regOf h p = none) ∨ intact h p
  | ⟨.remove s _, .ok _⟩ :: h, p => s ∉ members h p ∧ intact h p
  | _ :: h, p => intact h p

/-- `s` registered `p` under ID `i`, and since then neither unregistered `i` nor was removed. -/
def holds : List Event → Nat → Str → Nat → Prop
  | [], _, _, _ => False
  | ⟨.receive s' (.register _ _ p') _ _, .ok (.msg (.registered _ i') _)⟩ :: h, s, p, i => (s' = s ∧ p' = p ∧ i' = i) ∨ holds h s p i
  | ⟨.receive s' (.unregister _ i') _ _, .ok _⟩ :: h, s, p, i => ¬(s' = s ∧ i' = i) ∧ holds h s p i
  | ⟨.remove s' _, .ok _⟩ :: h, s, p, i => s' ≠ s ∧ holds h s p i
  | _ :: h, s, p, i => holds h s p i

/-! ### Histories without the known trouble -/

/-- `i` was given out as the ID of a registration of `p`. -/
def idOf (h : List Event) (p : Str) (i : Nat) : Prop := ∃ e ∈ h, ∃ s, registeredAs s p i e

/-- Whenever an UNREGISTER succeeded with the ID of a registration of `p`, the session was at that time a member of that registration. -/
def Held (p : Str) : List Event → Prop
  | [] => True
  | ⟨.receive s (.unregister _ i) _ _, .ok _⟩ :: h => (idOf h p i → ∃ r, regOf h p = some r ∧ r.id = i ∧ s ∈ r.members) ∧ Held p h
  | _ :: h => Held p h

/-- A call that does not provoke the known faults of shared registrations of `p`: nobody registers a second time for `p` while already
registered for it, and a session unregisters a registration of `p` only if it alone holds it. -/
def tameStep (p : Str) (h : List Event) : Event → Prop
  | ⟨.receive s (.register _ _ p') _ _, .ok (.msg (.registered _ _) _)⟩ => p' = p → s ∉ members h p
  | ⟨.receive s (.unregister _ i) _ _, .ok _⟩ => idOf h p i → ∃ r, regOf h p = some r ∧ r.id = i ∧ r.members = [s]
  | _ => True

/-- All calls of the history are such. -/
def Tame (p : Str) : List Event → Prop
  | [] => True
  | e :: h => tameStep p h e ∧ Tame p h

/-! ### Exclusive registrations -/

/-- Every REGISTER for `p` asked for the single policy, or for none. -/
def Single (p : Str) (h : List Event) : Prop :=
  ∀ e ∈ h, ∀ s q o order rnd, e.op = .receive s (.register q o p) order rnd → o.text (str "invoke") = [] ∨ o.text (str "invoke") = str "single"

/-- The session whose REGISTER for `p` succeeded last, and the ID it got, unless it unregistered or was removed since. -/
def owner : List Event → Str → Option (Nat × Nat)
  | [], _ => none
  | ⟨.receive s (.register _ _ p') _ _, .ok (.msg (.registered _ i) _)⟩ :: h, p => if p' = p then some (s, i) else owner h p
  | ⟨.receive s (.unregister _ i) _ _, .ok _⟩ :: h, p => if owner h p = some (s, i) then none else owner h p
  | ⟨.remove s _, .ok _⟩ :: h, p => if (owner h p).map Prod.fst = some s then none else owner h p
  | _ :: h, p => owner h p

/-- No REGISTER asked for prefix or wildcard matching. -/
def noPatterns (h : List Event) : Prop :=
  ∀ e ∈ h, ∀ s q o p order rnd, e.op = .receive s (.register q o p) order rnd →
    o.text (str "match") ≠ str "prefix" ∧ o.text (str "match") ≠ str "wildcard"

/-- Calls made one after the other (oldest first) on a dealer, continuing a history. -/
def exec (w : Str → Str → Bool) : List Event × State → List Op → List Event × State
  | x, [] => x
  | x, op :: ops => exec w (⟨op, (step w x.2 op).2⟩ :: x.1, (step w x.2 op).1) ops

/-- None of these calls panics. -/
def calm (w : Str → Str → Bool) : State → List Op → Bool
  | _, [] => true
  | b, op :: ops => (match (step w b op).2 with | .panic => false | _ => true) && calm w (step w b op).1 ops

end Wamp.Dealer
