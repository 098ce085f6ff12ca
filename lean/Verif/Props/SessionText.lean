import Verif.Model.SessionText
import Verif.Spec.SessionText
import Verif.Props.Session
import Verif.Props.ErrorText
/-!
# C156: the error of a client session states a fact
-/
namespace Wamp.SessionText
open Wamp.RouterText Wamp.Session Wamp.Spec.RouterText Wamp.Spec.SessionText

private theorem dec_num (n : Nat) : dec n = num n := rfl

/-- `SendMessage` returns an error exactly if there is a text. -/
private theorem send_err (data : Res Str) (cause : Str) (s : State) (m : Msg) :
    ((send data m).run s).2 = .err ↔ ∃ t, sendError data cause s m = some t := by
  cases data with
  | err => simp [send, sendError, Prog.run]
  | panic => simp [send, sendError, Prog.run]
  | ok b =>
    cases m
    case yield r o a k bin =>
      simp only [send, sendError]
      split <;> simp [Prog.run]
    case publish r o a k t =>
      simp only [send, sendError]
      split <;> simp [Prog.run]
    case unsubscribe r g =>
      simp only [send, sendError, Prog.run]
      cases s .subscriptions g <;> simp [Prog.run]
    case error t r d u a k =>
      simp only [send, sendError]
      split <;> simp [Prog.run]
    all_goals simp [send, sendError, Prog.run]

/-- `ReceiveMessage` returns an error exactly if there is a text. -/
private theorem recv_err (s : State) (m : Msg) : ((recv m).run s).2 = .err ↔ ∃ t, recvError s m = some t := by
  cases m
  case result r d a k b =>
    simp only [recv, recvError, Prog.run]
    cases s .call r with
    | none => simp [Prog.run]
    | some v => simp only [Option.isSome_some, if_true]; split <;> simp [Prog.run]
  case unregistered r =>
    simp only [recv, recvError, Prog.run]
    cases s .unregister r with
    | none => simp [Prog.run]
    | some g => simp only [Prog.run]; cases s .registrations g <;> simp [Prog.run]
  case unsubscribed r =>
    simp only [recv, recvError, Prog.run]
    cases s .unsubscribe r with
    | none => simp [Prog.run]
    | some g => simp only [Prog.run]; cases s .subscriptions g <;> simp [Prog.run]
  case error t r d u a k =>
    simp only [recv, recvError]
    cases errorTab t with
    | none => simp [Prog.run]
    | some tab => simp only [Prog.run]; cases s tab r <;> simp [Prog.run]
  case registered r g => simp only [recv, recvError, Prog.run]; cases s .register r <;> simp [Prog.run]
  case invocation r g _ _ _ _ => simp only [recv, recvError, Prog.run]; cases s .registrations g <;> simp [Prog.run]
  case published r g => simp only [recv, recvError, Prog.run]; cases s .publish r <;> simp [Prog.run]
  case subscribed r g => simp only [recv, recvError, Prog.run]; cases s .subscribe r <;> simp [Prog.run]
  case event g _ _ _ _ => simp only [recv, recvError, Prog.run]; cases s .subscriptions g <;> simp [Prog.run]
  all_goals simp [recv, recvError, Prog.run]

private theorem type_name (m : Msg) : typeName m = str "*messages." ++ str (goName m.kind) := by
  cases m <;> (simp only [typeName, Msg.kind, goName]; decide +kernel)

private theorem typed (a : String) (m : Msg) (b : String) (hb : str b = str a ++ str "*messages.") :
    str a ++ typeName m = str b ++ str (goName m.kind) := by
  rw [type_name, hb, List.append_assoc]

/-- **C156** (sending). After every sequence of calls, whatever the message: `SendMessage` returns an error exactly if `sendError` has a text.
If the message could not be serialized, the text ends with the serializer's; otherwise the texts are exactly those that state a fact. -/
theorem C156_send {h : List Event} {s : State} (hh : Hist h s) (data : Res Str) (cause : Str) (m : Msg) :
    (((send data m).run s).2 = .err ↔ ∃ t, sendError data cause s m = some t) ∧
    (data = .err → sendError data cause s m = some (str "failed to serialize message: " ++ cause)) ∧
    (∀ b, data = .ok b → ∀ t, sendError data cause s m = some t ↔ SendSays h m t) := by
  have R := hist_reflects hh
  refine ⟨send_err data cause s m, ?_, ?_⟩
  · rintro rfl; rfl
  · rintro b rfl t
    have oth : m.kind ∉ sendable → (some (str "send not supported for message of type " ++ typeName m) = some t ↔ SendSays h m t) := by
      intro hm
      rw [typed _ m "send not supported for message of type *messages." (by decide +kernel), Option.some.injEq]
      constructor
      · rintro rfl; exact .other m hm
      · intro hs
        cases hs with
        | unsubscribe => simp [Msg.kind, sendable] at hm
        | error => simp [Msg.kind, sendable] at hm
        | other => rfl
    have no : m.kind ∈ sendable → m.kind ≠ .unsubscribe → m.kind ≠ .error → ¬SendSays h m t := by
      intro h1 h2 h3 hs
      cases hs with
      | unsubscribe => exact h2 rfl
      | error => exact h3 rfl
      | other _ hm => exact hm h1
    cases m
    case unsubscribe r g =>
      have hr := R.subscriptions g
      simp only [sendError]
      constructor
      · intro ht
        split at ht
        · rename_i hg
          cases ht
          rw [hg] at hr
          exact .unsubscribe r g hr.symm
        · cases ht
      · intro hs
        cases hs with
        | unsubscribe _ _ hg =>
          rw [hg] at hr
          cases hv : s .subscriptions g with
          | none => rfl
          | some v => rw [hv] at hr; cases hr
        | other _ hm => simp [Msg.kind, sendable] at hm
    case error x r d u a k =>
      simp only [sendError]
      constructor
      · intro ht
        split at ht
        · rename_i hx; cases ht; exact .error x r d u a k hx
        · cases ht
      · intro hs
        cases hs with
        | error _ _ _ _ _ _ hx => rw [if_pos hx]
        | other _ hm => simp [Msg.kind, sendable] at hm
    case call => simpa [sendError] using no (by simp [Msg.kind, sendable]) (by simp [Msg.kind]) (by simp [Msg.kind])
    case yield => simpa [sendError] using no (by simp [Msg.kind, sendable]) (by simp [Msg.kind]) (by simp [Msg.kind])
    case register => simpa [sendError] using no (by simp [Msg.kind, sendable]) (by simp [Msg.kind]) (by simp [Msg.kind])
    case unregister => simpa [sendError] using no (by simp [Msg.kind, sendable]) (by simp [Msg.kind]) (by simp [Msg.kind])
    case publish => simpa [sendError] using no (by simp [Msg.kind, sendable]) (by simp [Msg.kind]) (by simp [Msg.kind])
    case subscribe => simpa [sendError] using no (by simp [Msg.kind, sendable]) (by simp [Msg.kind]) (by simp [Msg.kind])
    case goodbye => simpa [sendError] using no (by simp [Msg.kind, sendable]) (by simp [Msg.kind]) (by simp [Msg.kind])
    all_goals exact oth (by simp [Msg.kind, sendable])

/-- **C156** (receiving). After every sequence of calls, whatever the message: `ReceiveMessage` returns an error exactly if `recvError` has a
text, and the texts are exactly those that state a fact. -/
theorem C156_receive_partial {h : List Event} {s : State} (hh : Hist h s) (m : Msg) :
    (((recv m).run s).2 = .err ↔ ∃ t, recvError s m = some t) ∧ ∀ t, recvError s m = some t ↔ RecvSays h m t := by
  have R := hist_reflects hh
  refine ⟨recv_err s m, fun t => ?_⟩
  have oth : m.kind ∉ receivable → (some (str "unknown message type " ++ typeName m) = some t ↔ RecvSays h m t) := by
    intro hm
    rw [typed _ m "unknown message type *messages." (by decide +kernel), Option.some.injEq]
    constructor
    · rintro rfl; exact .other m hm
    · intro hs
      cases hs with
      | other => rfl
      | _ => simp [Msg.kind, receivable] at hm
  have flip : ∀ {x : Option Nat} {y : Bool} {u : Str}, x.isSome = y → ((if x.isSome then none else some u) = some t ↔ y = false ∧ u = t) := by
    intro x y u hxy
    rw [hxy]
    cases y <;> simp
  cases m
  case result r d a k b =>
    simp only [recvError]
    rw [flip (R.call r)]
    constructor
    · rintro ⟨h1, rfl⟩; exact .result r d a k b h1
    · intro hs
      cases hs with
      | result _ _ _ _ _ h1 => exact ⟨h1, rfl⟩
      | other _ hm => simp [Msg.kind, receivable] at hm
  case registered r g =>
    simp only [recvError]
    rw [flip (R.register r)]
    constructor
    · rintro ⟨h1, rfl⟩; exact .registered r g h1
    · intro hs
      cases hs with
      | registered _ _ h1 => exact ⟨h1, rfl⟩
      | other _ hm => simp [Msg.kind, receivable] at hm
  case invocation r g d a k b =>
    simp only [recvError]
    rw [flip (R.registrations g)]
    constructor
    · rintro ⟨h1, rfl⟩; exact .invocation r g d a k b h1
    · intro hs
      cases hs with
      | invocation _ _ _ _ _ _ h1 => exact ⟨h1, rfl⟩
      | other _ hm => simp [Msg.kind, receivable] at hm
  case published r p =>
    simp only [recvError]
    rw [flip (R.publish r)]
    constructor
    · rintro ⟨h1, rfl⟩; exact .published r p h1
    · intro hs
      cases hs with
      | published _ _ h1 => exact ⟨h1, rfl⟩
      | other _ hm => simp [Msg.kind, receivable] at hm
  case subscribed r g =>
    simp only [recvError]
    rw [flip (R.subscribe r)]
    constructor
    · rintro ⟨h1, rfl⟩; exact .subscribed r g h1
    · intro hs
      cases hs with
      | subscribed _ _ h1 => exact ⟨h1, rfl⟩
      | other _ hm => simp [Msg.kind, receivable] at hm
  case event g p d a k =>
    simp only [recvError]
    rw [flip (R.subscriptions g)]
    constructor
    · rintro ⟨h1, rfl⟩; exact .event g p d a k h1
    · intro hs
      cases hs with
      | event _ _ _ _ _ h1 => exact ⟨h1, rfl⟩
      | other _ hm => simp [Msg.kind, receivable] at hm
  case unregistered r =>
    simp only [recvError]
    rw [R.unregister r]
    constructor
    · intro ht
      split at ht
      · rename_i hr; cases ht; exact .unregistered r hr
      · rename_i g hr
        obtain ⟨h1, rfl⟩ := (flip (R.registrations g)).1 ht
        exact .unregisteredID r g hr h1
    · intro hs
      cases hs with
      | unregistered _ h1 => rw [h1]
      | unregisteredID _ g h1 h2 => rw [h1]; exact (flip (R.registrations g)).2 ⟨h2, rfl⟩
      | other _ hm => simp [Msg.kind, receivable] at hm
  case unsubscribed r =>
    simp only [recvError]
    rw [R.unsubscribe r]
    constructor
    · intro ht
      split at ht
      · rename_i hr; cases ht; exact .unsubscribed r hr
      · rename_i g hr
        obtain ⟨h1, rfl⟩ := (flip (R.subscriptions g)).1 ht
        exact .unsubscribedID r g hr h1
    · intro hs
      cases hs with
      | unsubscribed _ h1 => rw [h1]
      | unsubscribedID _ g h1 h2 => rw [h1]; exact (flip (R.subscriptions g)).2 ⟨h2, rfl⟩
      | other _ hm => simp [Msg.kind, receivable] at hm
  case error x r d u a k =>
    have num0 : ∀ y tab, errorTab y = some tab → ∃ n o, (n, y, o) ∈ requests ∧
        errorText tab = str "received ERROR for invalid " ++ str n ++ str " request" ∧
        ((s tab r).isSome = false ↔ ¬o r h) ∧ ∀ n' o', (n', y, o') ∈ requests → n' = n ∧ o' = o := by
      intro y tab hy
      have opt : ∀ z : Option Nat, z.isSome = false ↔ ¬∃ g, z = some g := by intro z; cases z <;> simp
      rcases errorTab_cases y with rfl | rfl | rfl | rfl | rfl | rfl | hn
      · cases hy
        refine ⟨_, _, .head _, by decide +kernel, by rw [R.call]; simp, ?_⟩
        intro n' o' hm; simp [requests] at hm; exact hm
      · cases hy
        refine ⟨_, _, .tail _ (.head _), by decide +kernel, by rw [R.register]; simp, ?_⟩
        intro n' o' hm; simp [requests] at hm; exact hm
      · cases hy
        refine ⟨_, _, .tail _ (.tail _ (.head _)), by decide +kernel, by rw [R.unregister, opt], ?_⟩
        intro n' o' hm; simp [requests] at hm; exact hm
      · cases hy
        refine ⟨_, _, .tail _ (.tail _ (.tail _ (.head _))), by decide +kernel, by rw [R.subscribe]; simp, ?_⟩
        intro n' o' hm; simp [requests] at hm; exact hm
      · cases hy
        refine ⟨_, _, .tail _ (.tail _ (.tail _ (.tail _ (.head _)))), by decide +kernel, by rw [R.unsubscribe, opt], ?_⟩
        intro n' o' hm; simp [requests] at hm; exact hm
      · cases hy
        refine ⟨_, _, .tail _ (.tail _ (.tail _ (.tail _ (.tail _ (.head _))))), by decide +kernel, by rw [R.publish]; simp, ?_⟩
        intro n' o' hm; simp [requests] at hm; exact hm
      · rw [hn] at hy; cases hy
    have none0 : ∀ y, errorTab y = none ↔ y ∉ requests.map (fun p => p.2.1) := by
      intro y
      constructor
      · intro hy hm
        simp [requests] at hm
        rcases hm with rfl | rfl | rfl | rfl | rfl | rfl <;> cases hy
      · intro hm
        rcases errorTab_cases y with rfl | rfl | rfl | rfl | rfl | rfl | hn
        case inr.inr.inr.inr.inr.inr => exact hn
        all_goals simp [requests] at hm
    have name : str "unknown error message type " ++ typeName (.error x r d u a k) = str "unknown error message type *messages.Error" := by
      rfl
    simp only [recvError]
    constructor
    · intro ht
      split at ht
      · rename_i hx
        rw [name] at ht
        cases ht
        exact .unknownError x r d u a k ((none0 x).1 hx)
      · rename_i tab hx
        obtain ⟨n, o, hm, ht', ho, _⟩ := num0 x tab hx
        obtain ⟨h1, rfl⟩ := (flip rfl).1 ht
        rw [ht']
        exact .error n x o r d u a k hm (ho.1 h1)
    · intro hs
      cases hs with
      | error n _ o _ _ _ _ _ hm ho =>
        cases hx : errorTab x with
        | none =>
          exact absurd (List.mem_map.2 ⟨_, hm, rfl⟩) ((none0 x).1 hx)
        | some tab =>
          obtain ⟨n', o', _, ht', ho', hu⟩ := num0 x tab hx
          obtain ⟨rfl, rfl⟩ := hu n o hm
          exact (flip rfl).2 ⟨ho'.2 ho, ht'⟩
      | unknownError _ _ _ _ _ _ hx => rw [(none0 x).2 hx, name]
      | other _ hm => simp [Msg.kind, receivable] at hm
  case goodbye d u =>
    simp only [recvError]
    constructor
    · intro ht; cases ht
    · intro hs
      cases hs with
      | other _ hm => simp [Msg.kind, receivable] at hm
  case abort d u a k =>
    simp only [recvError]
    constructor
    · intro ht; cases ht
    · intro hs
      cases hs with
      | other _ hm => simp [Msg.kind, receivable] at hm
  all_goals exact oth (by simp [Msg.kind, receivable])

/-- **C156** (bytes). `Receive` returns an error exactly if there is a text: for bytes that `Deserialize` rejects, a text that ends with that of
`Deserialize` (C154), for others the text that `ReceiveMessage` has for the message. -/
theorem C156_bytes (types : Nat → Str) (shown : Val → Str) (order again : Kind → List (Nat × Vd))
    (h1 : ∀ k, (order k).Perm k.vspec.spec) (h2 : ∀ k, (again k).Perm k.vspec.spec) (library : Str → Str) (c : Codec) (b : Str) (s : State) :
    (((receive c b).run s).2 = .err ↔ ∃ t, receiveError s (ErrorText.deserialize types shown order again library c b) = some t) ∧
    (∀ t, ErrorText.deserialize types shown order again library c b = .err t →
      receiveError s (ErrorText.deserialize types shown order again library c b) = some (str "failed to deserialize message: " ++ t)) ∧
    (∀ m, c.deserialize b = .ok m → receiveError s (ErrorText.deserialize types shown order again library c b) = recvError s m) := by
  have hf := ErrorText.C154_results types shown order again h1 h2 library c b
  generalize hd : ErrorText.deserialize types shown order again library c b = x at hf
  cases x with
  | ok m =>
    simp only [ErrorText.TRes.forget] at hf
    refine ⟨?_, by simp, ?_⟩
    · simp only [receive, ← hf, receiveError]; exact recv_err s m
    · intro m' hm; rw [← hf] at hm; cases hm; rfl
  | err t =>
    simp only [ErrorText.TRes.forget] at hf
    refine ⟨?_, ?_, ?_⟩
    · simp [receive, ← hf, receiveError, Prog.run]
    · intro t' ht; cases ht; rfl
    · intro m' hm; rw [← hf] at hm; cases hm
  | panic =>
    simp only [ErrorText.TRes.forget] at hf
    refine ⟨?_, by simp, ?_⟩
    · simp [receive, ← hf, receiveError, Prog.run]
    · intro m' hm; rw [← hf] at hm; cases hm

/-- **C156 is false** for an ERROR about a message that is no request: the text does not contain the type. -/
theorem C156_type_refuted (s : State) (x y r : Nat) (d : GoMap) (u : Str) (a : GoSlice) (k : GoMap)
    (hx : x ∉ requests.map (fun p => p.2.1)) (hy : y ∉ requests.map (fun p => p.2.1)) :
    recvError s (.error x r d u a k) = recvError s (.error y r d u a k) := by
  have none0 : ∀ y, y ∉ requests.map (fun p => p.2.1) → errorTab y = none := by
    intro y hm
    rcases errorTab_cases y with rfl | rfl | rfl | rfl | rfl | rfl | hn
    case inr.inr.inr.inr.inr.inr => exact hn
    all_goals simp [requests] at hm
  simp only [recvError, none0 x hx, none0 y hy]
  rfl

/-- 49 (CANCEL) and 50 (RESULT) are no such requests. -/
example : 49 ∉ requests.map (fun p => p.2.1) ∧ 50 ∉ requests.map (fun p => p.2.1) := by simp [requests]

/-- **C156 is false** for a second UNREGISTERED: the only request with the ID 5 was answered, but the text blames the registration. -/
theorem C156_settled_refuted : ∃ h s, Hist h s ∧ h.countP (unregisterSent 5) = 1 ∧
    h.countP (fun e => match e with | ⟨.recv (.unregistered 5), true⟩ => true | _ => false) = 1 ∧
    recvError s (.unregistered 5) = some (str "received UNREGISTERED for invalid registrationID") :=
  ⟨_, _, .step (.recv (.unregistered 5)) (.step (.send (.ok []) (.unregister 5 9)) (.step (.recv (.registered 1 9))
    (.step (.send (.ok []) (.register 1 none [])) .new))), rfl, rfl, rfl⟩

/-- A call is outstanding: a RESULT for another request is refused, also a REGISTERED and an ERROR about a REGISTER with the same number. -/
example : ∃ h s, Hist h s ∧ recvError s (.result 1 none none none .none) = none ∧
    recvError s (.result 2 none none none .none) = some (str "received RESULT for invalid requestID") ∧
    recvError s (.registered 1 1) = some (str "received REGISTERED for invalid requestID") ∧
    recvError s (.error 64 1 none [] none none) = some (str "received ERROR for invalid register request") ∧
    recvError s (.error 48 1 none [] none none) = none ∧
    recvError s (.welcome 1 none) = some (str "unknown message type *messages.Welcome") :=
  ⟨_, _, .step (.send (.ok []) (.call 1 none [] none none .none)) .new, rfl, rfl, rfl, rfl, rfl, rfl⟩

/-- Sending: an UNSUBSCRIBE without a subscription, an ERROR about a CALL, a WELCOME. -/
example : sendError (.ok []) [] init (.unsubscribe 1 7) = some (str "unsubscribe request for non existent subscription " ++ dec 7) ∧
    sendError (.ok []) [] init (.error 48 1 none [] none none) = some (str "send only supported for invocation error") ∧
    sendError (.ok []) [] init (.welcome 1 none) = some (str "send not supported for message of type *messages.Welcome") ∧
    sendError .err (str "x") init (.call 1 none [] none none .none) = some (str "failed to serialize message: x") := ⟨rfl, rfl, rfl, rfl⟩

end Wamp.SessionText
