import Verif.Spec.Outline
/-!
# C151: contents and unknown options do not matter
-/
namespace Wamp

private theorem flag_none (k : Str) : GoMap.flag (some []) k = false := rfl

private theorem flag_only {a : String} {o : GoMap} : GoMap.flag (some (onlyFlag a o)) (str a) = o.flag (str a) := by
  unfold onlyFlag
  cases h : o.flag (str a) <;> simp [GoMap.flag, GoMap.get, dget, Val.asBool?]

private theorem flag_two (o : GoMap) :
    GoMap.flag (some (onlyFlag "progress" o ++ onlyFlag "receive_progress" o)) (str "progress") = o.flag (str "progress") ∧
    GoMap.flag (some (onlyFlag "progress" o ++ onlyFlag "receive_progress" o)) (str "receive_progress") = o.flag (str "receive_progress") := by
  have e : str "receive_progress" ≠ str "progress" := by decide
  have e' : str "progress" ≠ str "receive_progress" := by decide
  unfold onlyFlag
  cases h : o.flag (str "progress") <;> cases h' : o.flag (str "receive_progress") <;>
    simp [GoMap.flag, GoMap.get, dget, Val.asBool?, e, e']

private theorem text_cons (k t : Str) (rest : Dict) : GoMap.text (some ((k, .str t) :: rest)) k = t := by
  simp [GoMap.text, GoMap.get, dget, Val.asStr?]

private theorem match_only (o : GoMap) (rest : Dict) (hr : dget rest (str "match") = none) :
    normMatch (GoMap.text (some (onlyText "match" ["prefix", "wildcard"] o ++ rest)) (str "match")) = normMatch (o.text (str "match")) := by
  have hn : GoMap.text (some rest) (str "match") = [] := by simp [GoMap.text, GoMap.get, hr]
  have hm : ∀ t : Str, t ∈ ["prefix", "wildcard"].map str ↔ t = str "prefix" ∨ t = str "wildcard" := by simp
  have ep : str "prefix" ≠ [] := by decide
  have ew : str "wildcard" ≠ [] := by decide
  unfold onlyText
  generalize o.text (str "match") = t
  simp only [hm]
  by_cases h : t = str "prefix" ∨ t = str "wildcard"
  · have ht : t ≠ [] := by rcases h with h | h <;> subst h <;> assumption
    rw [if_pos ⟨ht, .inr h⟩]
    show normMatch (GoMap.text (some ((str "match", .str t) :: rest)) (str "match")) = _
    rw [text_cons]
  · rw [if_neg (by rintro ⟨-, h' | h'⟩; cases h'; exact h h')]
    rw [List.nil_append, hn]
    have h1 : t ≠ matchPrefix := fun e => h (.inl e)
    have h2 : t ≠ matchWildcard := fun e => h (.inr e)
    simp only [normMatch, h1, h2, if_false]
    decide

private theorem text_only (o : GoMap) (pre : Dict) (hr : dget pre (str "invoke") = none) :
    GoMap.text (some (pre ++ onlyText "invoke" [] o)) (str "invoke") = o.text (str "invoke") := by
  have hp : ∀ rest, dget (pre ++ rest) (str "invoke") = dget rest (str "invoke") := by
    intro rest
    induction pre with
    | nil => rfl
    | cons x pre ih =>
      simp only [dget, List.cons_append] at hr ⊢
      split at hr
      · cases hr
      · rename_i h
        rw [if_neg h]
        exact ih hr
  have hg : ∀ rest, GoMap.text (some (pre ++ rest)) (str "invoke") = GoMap.text (some rest) (str "invoke") := by
    intro rest
    simp only [GoMap.text, GoMap.get, hp]
  rw [hg]
  unfold onlyText
  generalize o.text (str "invoke") = t
  by_cases h : t = []
  · subst h; rfl
  · simp only
    rw [if_pos ⟨h, .inl trivial⟩, text_cons]

private theorem dget_match (o : GoMap) : dget (onlyText "match" ["prefix", "wildcard"] o) (str "invoke") = none := by
  have e : str "invoke" ≠ str "match" := by decide
  unfold onlyText
  simp only
  split <;> simp [dget, e]

private theorem dget_invoke (o : GoMap) : dget (onlyText "invoke" [] o) (str "match") = none := by
  have e : str "match" ≠ str "invoke" := by decide
  unfold onlyText
  simp only
  split <;> simp [dget, e]

namespace Broker
variable {w : Str → Str → Bool}

theorem step_outline (b : State) (op : Op) : step w b op.outline = ((step w b op).1, (step w b op).2.map Out.outline) := by
  cases op with
  | add d => simp only [Op.outline, step]; cases (addSession b d).2 <;> rfl
  | remove s o => simp only [Op.outline, step]; cases (removeSession b s o).2 <;> rfl
  | has t => rfl
  | disclose on => rfl
  | receive s m =>
    cases m with
    | subscribe r o t =>
      have hm := match_only o [] rfl
      rw [List.append_nil] at hm
      simp only [Op.outline, Msg.outline, step, receive, subscribe, optMatch, hm]
      split
      · rfl
      · split <;> rfl
    | unsubscribe r i =>
      simp only [Op.outline, Msg.outline, step, receive, unsubscribe]
      split
      · rfl
      · split <;> rfl
    | _ => rfl
  | publish s q o t a k wo so =>
    simp only [Op.outline, step, publish, flag_only]
    split
    · rfl
    · split
      · cases o.flag (str "acknowledge") <;> rfl
      · split
        · cases o.flag (str "acknowledge") <;> rfl
        · split
          · cases o.flag (str "acknowledge") <;> rfl
          · rfl
          · rfl

end Broker

namespace Dealer
variable {w : Str → Str → Bool}

theorem step_outline (b : State) (op : Op) : step w b op.outline = ((step w b op).1, (step w b op).2.map Out.outline) := by
  cases op with
  | add d => simp only [Op.outline, step]; cases (addSession b d).2 <;> rfl
  | remove s o => simp only [Op.outline, step]; cases (removeSession b s o).2 <;> rfl
  | has t => rfl
  | disclose on => rfl
  | receive s m order rnd =>
    cases m with
    | call r o p a k bin =>
      simp only [Op.outline, Msg.outline, step, receive, call, optProgress, optReceiveProgress, (flag_two o).1, (flag_two o).2]
      split
      · rfl
      · split
        · rfl
        · split
          · rfl
          · rfl
          · split
            · rfl
            · split
              · rfl
              · split <;> rfl
    | yield r o a k bin =>
      simp only [Op.outline, Msg.outline, step, receive, yield, optProgress, flag_only]
      split
      · rfl
      · split
        · rfl
        · split <;> rfl
    | register r o p =>
      have h1 := match_only o _ (dget_invoke o)
      have h2 := text_only o _ (dget_match o)
      have e : register b s r (some (onlyText "match" ["prefix", "wildcard"] o ++ onlyText "invoke" [] o)) p = register b s r o p := by
        unfold register optMatch optInvoke
        rw [h1, h2]
      simp only [Op.outline, Msg.outline, step, receive, e]
      refine Prod.ext rfl ?_
      show Res.map _ (register b s r o p).2 = Res.map _ (Res.map _ (register b s r o p).2)
      unfold register
      split
      · rfl
      · simp only
        split
        · split <;> rfl
        · rfl
    | unregister r i =>
      simp only [Op.outline, Msg.outline, step, receive, unregister]
      split
      · rfl
      · split
        · rfl
        · split <;> rfl
    | error t r d u a k =>
      simp only [Op.outline, Msg.outline, step, receive, error]
      split
      · rfl
      · split <;> rfl
    | _ => rfl

end Dealer

namespace System
open Wamp
variable {w : Str → Str → Bool}

private theorem send_outline (m : Msg) (data data' : Str) (s : Session.State) :
    (Session.send (.ok data') m.outline).run s =
      (((Session.send (.ok data) m).run s).1, ((Session.send (.ok data) m).run s).2.map fun _ => data') := by
  cases m with
  | yield r o a k bin =>
    have h : GoMap.flag (some (onlyFlag "progress" o)) Session.optProgress = o.flag Session.optProgress := flag_only
    simp only [Msg.outline, Session.send]
    rw [h]
    cases o.flag Session.optProgress <;> rfl
  | publish r o t a k =>
    simp only [Msg.outline, Session.send]
    rw [flag_only]
    cases o.flag (str "acknowledge") <;> rfl
  | unsubscribe r g =>
    simp only [Msg.outline, Session.send, Session.Prog.run]
    cases s .subscriptions g <;> rfl
  | error t r d u a k =>
    simp only [Msg.outline, Session.send]
    split <;> rfl
  | _ => rfl

private theorem recv_outline (m : Msg) (s : Session.State) :
    (Session.recv m.outline).run s = (((Session.recv m).run s).1, ((Session.recv m).run s).2.map Msg.outline) := by
  cases m with
  | result r d a k bin =>
    simp only [Msg.outline, Session.recv, Session.Prog.run]
    cases s .call r with
    | none => rfl
    | some v => simp only; cases d.flag Session.optProgress <;> rfl
  | registered r g => simp only [Msg.outline, Session.recv, Session.Prog.run]; cases s .register r <;> rfl
  | unregistered r =>
    simp only [Msg.outline, Session.recv, Session.Prog.run]
    cases s .unregister r with
    | none => rfl
    | some g => simp only [Session.Prog.run]; cases s .registrations g <;> rfl
  | invocation i g d a k bin => simp only [Msg.outline, Session.recv, Session.Prog.run]; cases s .registrations g <;> rfl
  | published r n => simp only [Msg.outline, Session.recv, Session.Prog.run]; cases s .publish r <;> rfl
  | subscribed r i => simp only [Msg.outline, Session.recv, Session.Prog.run]; cases s .subscribe r <;> rfl
  | unsubscribed r =>
    simp only [Msg.outline, Session.recv, Session.Prog.run]
    cases s .unsubscribe r with
    | none => rfl
    | some g => simp only [Session.Prog.run]; cases s .subscriptions g <;> rfl
  | event i n d a k => simp only [Msg.outline, Session.recv, Session.Prog.run]; cases s .subscriptions i <;> rfl
  | error t r d u a k =>
    simp only [Msg.outline, Session.recv]
    cases Session.errorTab t with
    | none => rfl
    | some tab => simp only [Session.Prog.run]; cases s tab r <;> rfl
  | _ => rfl

private theorem brokerOut_outline (r : Res Broker.Out) :
    brokerOut (r.map Broker.Out.outline) = (brokerOut r).map fun p => (p.1, p.2.outline) := by
  cases r with
  | err => rfl
  | panic => rfl
  | ok o =>
    cases o with
    | unit => rfl
    | bool b => rfl
    | msg m s => rfl
    | pub p =>
      obtain ⟨e, rs, a⟩ := p
      cases e <;> cases a <;> simp [brokerOut, Broker.Out.outline]

private theorem dealerOut_outline (r : Res Dealer.Out) :
    dealerOut (r.map Dealer.Out.outline) = (dealerOut r).map fun p => (p.1, p.2.outline) := by
  cases r with
  | err => rfl
  | panic => rfl
  | ok o => cases o <;> rfl

private theorem onBroker_outline (x : Sys) (op : Broker.Op) : x.outline.onBroker w op.outline = (x.onBroker w op).outline := by
  have h : Broker.step w x.outline.broker op.outline = _ := Broker.step_outline x.broker op
  simp only [Sys.onBroker, h]
  rfl

private theorem onDealer_outline (x : Sys) (op : Dealer.Op) : x.outline.onDealer w op.outline = (x.onDealer w op).map Sys.outline := by
  have h : Dealer.step w x.outline.dealer op.outline = _ := Dealer.step_outline x.dealer op
  simp only [Sys.onDealer, h]
  cases e : (Dealer.step w x.dealer op).2 <;> rfl

private theorem post_outline (x : Sys) (out : List (Nat × Msg)) :
    x.outline.post (out.map fun p => (p.1, p.2.outline)) = (x.post out).outline := by
  have : ∀ s, messagesFor s (out.map fun p => (p.1, p.2.outline)) = (messagesFor s out).map Msg.outline := by
    intro s
    simp [messagesFor, List.filter_map, Function.comp_def]
  simp [Sys.post, Sys.outline, this]

private theorem handle_outline (x : Sys) (s : Nat) (m : Msg) (wo : List Str) (so : List Nat) (rnd : Nat) :
    x.outline.handle w s m.outline wo so rnd = (x.handle w s m wo so rnd).map Sys.outline := by
  have hb : ∀ op : Broker.Op, (x.outline.onBroker w op.outline).post (brokerOut (Broker.step w x.outline.broker op.outline).2) =
      ((x.onBroker w op).post (brokerOut (Broker.step w x.broker op).2)).outline := by
    intro op
    have h : Broker.step w x.outline.broker op.outline = _ := Broker.step_outline x.broker op
    rw [h, onBroker_outline, brokerOut_outline, post_outline]
  have hd : ∀ op : Dealer.Op, ((x.outline.onDealer w op.outline).map fun y => y.post (dealerOut (Dealer.step w x.outline.dealer op.outline).2)) =
      ((x.onDealer w op).map fun y => y.post (dealerOut (Dealer.step w x.dealer op).2)).map Sys.outline := by
    intro op
    have h : Dealer.step w x.outline.dealer op.outline = _ := Dealer.step_outline x.dealer op
    rw [h, onDealer_outline, dealerOut_outline, Option.map_map, Option.map_map]
    cases x.onDealer w op with
    | none => rfl
    | some y => exact congrArg some (post_outline y _)
  cases m with
  | publish q o t a k => exact congrArg some (hb (.publish s q o t a k wo so))
  | subscribe q o t => exact congrArg some (hb (.receive s (.subscribe q o t)))
  | unsubscribe q i => exact congrArg some (hb (.receive s (.unsubscribe q i)))
  | call r o p a k bin => exact hd (.receive s (.call r o p a k bin) wo rnd)
  | yield r o a k bin => exact hd (.receive s (.yield r o a k bin) wo rnd)
  | register r o p => exact hd (.receive s (.register r o p) wo rnd)
  | unregister r i => exact hd (.receive s (.unregister r i) wo rnd)
  | error t r d u a k => exact hd (.receive s (.error t r d u a k) wo rnd)
  | _ => rfl

private theorem upd_map {α β : Type} (f : α → β) (g : Nat → α) (s : Nat) (v : α) : (fun i => f (upd g s v i)) = upd (fun i => f (g i)) s (f v) := by
  funext i
  simp only [upd]
  split <;> rfl

private theorem act_outline (x : Sys) (a : Action) :
    x.outline.act w (match a with | .send s _ m => .send s [] m.outline | a => a) = (x.act w a).map Sys.outline := by
  cases a with
  | join d =>
    simp only [Sys.act]
    show (if d.id ∈ x.joined then none else _) = _
    split
    · rfl
    · exact (congrArg (fun y => Sys.onDealer w y (.add d)) (onBroker_outline ({ x with joined := d.id :: x.joined } : Sys) (.add d))).trans
        (onDealer_outline _ (.add d))
  | leave s o o' =>
    exact (congrArg (fun y => Sys.onDealer w y (.remove s o')) (onBroker_outline x (.remove s o))).trans (onDealer_outline _ (.remove s o'))
  | disclose p c =>
    exact (congrArg (fun y => Sys.onDealer w y (.disclose c)) (onBroker_outline x (.disclose p))).trans (onDealer_outline _ (.disclose c))
  | send s data m =>
    simp only [Sys.act]
    rw [show x.outline.client s = x.client s from rfl, send_outline m data]
    rcases h : (Session.send (.ok data) m).run (x.client s) with ⟨c, r⟩
    cases r with
    | err => rfl
    | panic => rfl
    | ok b =>
      show (if s ∈ x.joined then _ else none) = Option.map _ (if s ∈ x.joined then _ else none)
      split
      · simp only [Option.map_some, Sys.outline, upd_map, List.map_append, List.map_cons, List.map_nil]
      · rfl
  | route s wo so rnd =>
    simp only [Sys.act]
    show (match (x.up s).map Msg.outline with | [] => none | m :: rest => _) = _
    cases h : x.up s with
    | nil => rfl
    | cons m rest =>
      refine Eq.trans ?_ (handle_outline ({ x with up := upd x.up s rest } : Sys) s m wo so rnd)
      simp only [List.map_cons, Sys.outline, upd_map]
  | deliver s =>
    simp only [Sys.act]
    show (match (x.down s).map Msg.outline with | [] => none | m :: rest => _) = _
    cases h : x.down s with
    | nil => rfl
    | cons m rest =>
      simp only [List.map_cons, Option.map_some]
      rw [show x.outline.client s = x.client s from rfl, recv_outline]
      simp only [Sys.outline, upd_map]

private theorem move_outline (F : Nat → Bool) (l : Log) (v : Move) : l.outline.move w F v.outline = (l.move w F v).map Log.outline := by
  have hl : ∀ a : Action, l.outline.act w (match a with | .send s _ m => .send s [] m.outline | a => a) = (l.act w a).map Log.outline := by
    intro a
    have h := act_outline (w := w) l.sys a
    simp only [Log.act]
    show (Sys.act w l.sys.outline _).map _ = _
    rw [h, Option.map_map, Option.map_map]
    cases l.sys.act w a with
    | none => rfl
    | some y =>
      refine congrArg some ?_
      cases a with
      | deliver s => simp [Log.outline, Sys.outline, upd_map, List.map_take]
      | _ => rfl
  cases v with
  | inject s m =>
    simp only [Move.outline, Log.move]
    show (if F s = true ∧ s ∈ l.sys.joined then _ else none) = Option.map _ (if F s = true ∧ s ∈ l.sys.joined then _ else none)
    split
    · simp only [Option.map_some, Log.outline, Sys.outline, upd_map, List.map_append, List.map_cons, List.map_nil]
    · rfl
  | act a =>
    cases a with
    | send s data m =>
      simp only [Move.outline, Log.move]
      split
      · rfl
      · exact hl (.send s data m)
    | join d => exact hl (.join d)
    | leave s o o' => exact hl (.leave s o o')
    | disclose p c => exact hl (.disclose p c)
    | route s wo so rnd => exact hl (.route s wo so rnd)
    | deliver s => exact hl (.deliver s)

private theorem moves_outline (F : Nat → Bool) (vs : List Move) (l : Log) :
    l.outline.moves w F (vs.map Move.outline) = (l.moves w F vs).map Log.outline := by
  induction vs generalizing l with
  | nil => rfl
  | cons v vs ih =>
    simp only [List.map_cons, Log.moves, move_outline]
    cases l.move w F v with
    | none => rfl
    | some l' => exact ih l'

/-- **C151.** Two runs of a router with its clients, some of which need not use this library, in which the same happens in outline: if one is
possible, so is the other, and they lead to the same states of broker, dealer and all client sessions, and to the same messages in outline: those
sent, under way and received. -/
theorem C151_system (F : Nat → Bool) {l₁ l₂ : Log} (hl : l₁.outline = l₂.outline) {vs₁ vs₂ : List Move} (hv : vs₁.map Move.outline = vs₂.map Move.outline) :
    (l₁.moves w F vs₁).map Log.outline = (l₂.moves w F vs₂).map Log.outline := by
  rw [← moves_outline, ← moves_outline, hl, hv]

/-- Three clients: the first subscribes with an option nobody knows, the third offers a procedure; the second publishes and calls, with
contents `a` and options `o`; the third answers with contents `a`. -/
private def conversation (o : Dict) (a : GoSlice) (data : Str) : List Move :=
  [.act (.join ⟨1, [], [], [], [], false, none, none⟩), .act (.join ⟨2, [], [], [], [], false, none, none⟩),
   .act (.join ⟨3, [], [], [], [], false, none, none⟩),
   .inject 1 (.subscribe 1 (some o) (str "t")), .act (.route 1 [] [] 0), .act (.deliver 1),
   .act (.send 3 data (.register 1 (some o) (str "p"))), .act (.route 3 [] [] 0), .act (.deliver 3),
   .act (.send 2 data (.publish 1 (some ((str "acknowledge", .bool true) :: o)) (str "t") a none)), .act (.route 2 [] [] 0), .act (.deliver 1),
   .act (.deliver 2),
   .act (.send 2 data (.call 2 (some o) (str "p") a none Bin.none)), .act (.route 2 [] [] 0), .act (.deliver 3),
   .act (.send 3 data (.yield 2 (some o) a none Bin.none)), .act (.route 3 [] [] 0)]

/-- Two such conversations with different contents and different unknown options: both are possible, and are the same in outline. -/
example : let o₁ : Dict := [(str "_trace", .bool true)]; let o₂ : Dict := [(str "eligible", .arr []), (str "match", .str (str "no such thing"))]
    (conversation o₁ (some [.str (str "x")]) [1]).map Move.outline = (conversation o₂ none [2]).map Move.outline ∧
    ((Log.new.moves (fun _ _ => false) (· == 1) (conversation o₁ (some [.str (str "x")]) [1])).map fun l =>
      ((l.inbox 1).length, (l.inbox 2).length, (l.inbox 3).length)) = some (2, 2, 2) ∧
    ((Log.new.moves (fun _ _ => false) (· == 1) (conversation o₂ none [2])).map fun l =>
      ((l.inbox 1).length, (l.inbox 2).length, (l.inbox 3).length)) = some (2, 2, 2) := by
  refine ⟨rfl, ?_, ?_⟩ <;> decide +kernel

/-- A known option is not left out. -/
example : Msg.outline (.subscribe 1 (some [(str "match", .str (str "prefix"))]) (str "t")) ≠ Msg.outline (.subscribe 1 none (str "t")) := by
  intro h
  have := congrArg (fun m => match m with | .subscribe _ o _ => o.text (str "match") | _ => []) h
  exact absurd this (by decide)

end System

namespace Broker
variable {w : Str → Str → Bool}

/-- **C151.** The same for the calls on a broker. -/
theorem C151_broker (b : State) {ops₁ ops₂ : List Op} (ho : ops₁.map Op.outline = ops₂.map Op.outline) :
    (replies w b ops₁).map (Res.map Out.outline) = (replies w b ops₂).map (Res.map Out.outline) := by
  have h : ∀ (ops : List Op) (b : State), replies w b (ops.map Op.outline) = (replies w b ops).map (Res.map Out.outline) := by
    intro ops
    induction ops with
    | nil => exact fun _ => rfl
    | cons op ops ih =>
      intro b
      simp only [List.map_cons, replies, step_outline, ih]
  rw [← h, ← h, ho]

end Broker

namespace Dealer
variable {w : Str → Str → Bool}

/-- **C151.** The same for the calls on a dealer. -/
theorem C151_dealer (b : State) {ops₁ ops₂ : List Op} (ho : ops₁.map Op.outline = ops₂.map Op.outline) :
    (replies w b ops₁).map (Res.map Out.outline) = (replies w b ops₂).map (Res.map Out.outline) := by
  have h : ∀ (ops : List Op) (b : State), replies w b (ops.map Op.outline) = (replies w b ops).map (Res.map Out.outline) := by
    intro ops
    induction ops with
    | nil => exact fun _ => rfl
    | cons op ops ih =>
      intro b
      simp only [List.map_cons, replies, step_outline, ih]
      cases (step w b op).2 <;> rfl
  rw [← h, ← h, ho]

end Dealer
end Wamp
