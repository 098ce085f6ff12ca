import Verif.Spec.Refused
import Verif.Props.Dealer
/-!
# C160: what is refused changes nothing
-/
namespace Wamp
open Dealer (noWild)

/-- **C160** An error of a broker: every later call returns what it would have returned without the refused one. -/
theorem Broker.C160_broker (w : Str → Str → Bool) (b : State) (op : Op) (he : (step w b op).2 = .err) (later : List Op) :
    replies w (step w b op).1 later = replies w b later := by
  have : (step w b op).1 = b := by
    cases op with
    | add d => simp only [step, addSession] at he ⊢; split <;> simp_all
    | remove s o =>
      simp only [step, removeSession] at he ⊢
      split <;> simp_all
      split <;> simp_all
    | has t => cases he
    | disclose on => cases he
    | receive s m =>
      simp only [step, receive] at he ⊢
      split
      · simp only [subscribe] at he ⊢
        split <;> simp_all
        split at he <;> simp_all
      · simp only [unsubscribe] at he ⊢
        split <;> simp_all
        split <;> simp_all
      · rfl
    | publish s q o t a k wo so =>
      simp only [step, publish] at he ⊢
      split <;> simp_all
      split at he
      · cases he
      · split at he
        · cases he
        · simp only [eventDetails] at he
          split at he
          · cases he
          · rename_i h
            split at h <;> simp_all
            split at h <;> simp_all
          · cases he
  rw [this]

namespace Dealer

private theorem replies_congr (w : Str → Str → Bool) {b b' : State} (h : b = b') (later : List Op) : replies w b later = replies w b' later := by
  rw [h]

/-- **C160** The dealer.  A refused call, other than a CALL or YIELD for which an error is returned, changes nothing: every later call
returns what it would have returned without it. -/
theorem C160_dealer_partial (w : Str → Str → Bool) (b : State) (op : Op) (hr : refused op (step w b op).2)
    (hc : ∀ s r o p a k bin order rnd, op = .receive s (.call r o p a k bin) order rnd → (step w b op).2 ≠ .err)
    (hy : ∀ s i o a k bin order rnd, op ≠ .receive s (.yield i o a k bin) order rnd) (later : List Op) :
    replies w (step w b op).1 later = replies w b later := by
  refine replies_congr w ?_ later
  cases op with
  | add d => simp only [step, addSession] at hr ⊢; split <;> simp_all [refused]
  | remove s o =>
    simp only [step, removeSession] at hr ⊢
    split <;> simp_all [refused]
    split <;> simp_all [refused]
  | has t => exact hr.elim
  | disclose on => exact hr.elim
  | receive s m order rnd =>
    cases m
    case call r o p a k bin =>
      have hc := hc _ _ _ _ _ _ _ _ _ rfl
      simp only [step, receive, call] at hr hc ⊢
      split <;> simp_all
      split <;> simp_all
      split <;> simp_all
      split at hr
      · exact hr.elim
      · split at hr
        · simp_all
        · split at hr <;> exact hr.elim
    case yield => exact absurd rfl (hy _ _ _ _ _ _ _ _)
    case register r o p =>
      simp only [step, receive, register] at hr ⊢
      split <;> simp_all
      split <;> simp_all
      · split <;> simp_all
        exact hr.elim
      · exact hr.elim
    case unregister r i =>
      simp only [step, receive, unregister] at hr ⊢
      split <;> simp_all
      split <;> simp_all
      split at hr
      · exact hr.elim
      · exact hr.elim
    case error t r d u a k =>
      simp only [step, receive, error] at hr ⊢
      split <;> simp_all
      split <;> simp_all
      exact hr.elim
    all_goals rfl

/-- The ERROR of a callee for the invocation `i`. -/
def errorOf (s i : Nat) : Op := .receive s (.error 68 i none [] none none) [] 0

/-- **C160** A YIELD for which the dealer returns an error.  It changes nothing, unless its invocation is outstanding and the caller has left:
then it ends the invocation, as an ERROR of the callee would. -/
theorem C160_yield (w : Str → Str → Bool) {h : List Event} {b : State} (hh : Hist w h b) (s i : Nat) (o : GoMap) (a : GoSlice) (k : GoMap)
    (bin : Bin) (order : List Str) (rnd : Nat) (he : (step w b (.receive s (.yield i o a k bin) order rnd)).2 = .err) (later : List Op) :
    replies w (step w b (.receive s (.yield i o a k bin) order rnd)).1 later = replies w b later ∨
    replies w (step w b (.receive s (.yield i o a k bin) order rnd)).1 later = replies w (step w b (errorOf s i)).1 later ∧
      ∃ m c, (step w b (errorOf s i)).2 = .ok (.msg m c) ∧ ¬attached h c := by
  have hs := (hist_sinv hh).sess
  simp only [step, receive, yield] at he ⊢
  split
  · exact .inl rfl
  · rename_i p hp
    simp only [hp] at he
    split at he
    · rename_i hn
      by_cases hm : (p.receiveProgress && o.flag optProgress) = true
      · left; simp only [hn, if_pos hm]
      · right
        simp only [hn, if_neg hm, errorOf, step, receive, error, hp]
        refine ⟨rfl, _, _, rfl, ?_⟩
        simp only [attached, ← hs, hn]
        exact Bool.false_ne_true
    · split at he <;> cases he

/-- The calls of `C160_call_refuted`: session 1 registers a shared procedure twice and leaves. -/
def stale : List Op := [.add (who 1), .add (who 2), .add (who 3), regWith 1 "p" "first", regWith 1 "p" "first", regWith 2 "p" "first", .remove 1 []]

/-- **C160** is false for CALLs: a CALL of session 3 that is refused with an error, because the callee has left, is answered by a RESULT if
anybody sends a YIELD with the ID of the INVOCATION that was not sent. -/
theorem C160_call_refuted : let b := after noWild stale
    Hist noWild (run noWild stale) b ∧ (step noWild b (callOf 3 7 "p")).2 = .err ∧
    replies noWild b [yieldOf 2 2] = [.err] ∧
    replies noWild (step noWild b (callOf 3 7 "p")).1 [yieldOf 2 2] = [.ok (.msg (newResult 7 none none none) 3)] :=
  ⟨hist_run stale rfl, rfl, rfl, rfl⟩

/-- A CALL that is answered by an ERROR, a REGISTER that is, and a YIELD without invocation. -/
example : let b := after noWild [.add (who 1), .add (who 2), reg 1 "p"]
    refused (callOf 2 7 "q") (step noWild b (callOf 2 7 "q")).2 ∧ (step noWild b (callOf 2 7 "q")).2 ≠ .err ∧
    refused (reg 2 "p") (step noWild b (reg 2 "p")).2 ∧ (step noWild b (yieldOf 1 5)).2 = .err :=
  ⟨trivial, nofun, trivial, rfl⟩

/-- A YIELD to a caller that has left, and what it changes: afterwards the dealer refuses the callee's ERROR. -/
example : let ops := [.add (who 1), .add (who 2), reg 1 "p", callOf 2 7 "p", .remove 2 []]
    Hist noWild (run noWild ops) (after noWild ops) ∧ (step noWild (after noWild ops) (yieldOf 1 2)).2 = .err ∧
    replies noWild (step noWild (after noWild ops) (yieldOf 1 2)).1 [errorOf 1 2] = [.err] ∧
    replies noWild (after noWild ops) [errorOf 1 2] ≠ [.err] :=
  ⟨hist_run _ rfl, rfl, rfl, nofun⟩

end Dealer

namespace Acceptor

/-- Acceptors that cannot be told apart: fields that differ are not read before they are overwritten. -/
private structure Same (s t : State) : Prop where
  st : s.st = t.st
  static : s.static = t.static
  details : s.details = t.details
  begun : s.st = .challengeSent → s.authMethod = t.authMethod ∧ s.hello = t.hello
  cra : s.st = .challengeSent → s.authMethod = mCRA → s.response = t.response ∧ s.challenge = t.challenge
  sign : s.st = .challengeSent → s.authMethod = mCryptoSign → s.request = t.request ∧ s.response = t.response

private theorem Same.refl (s : State) : Same s s := ⟨rfl, rfl, rfl, fun _ => ⟨rfl, rfl⟩, fun _ _ => ⟨rfl, rfl⟩, fun _ _ => ⟨rfl, rfl⟩⟩

private theorem Same.of {s t : State} (h1 : s.st = t.st) (h2 : s.static = t.static) (h3 : s.details = t.details) (h : s.st ≠ .challengeSent) : Same s t :=
  ⟨h1, h2, h3, fun e => absurd e h, fun e => absurd e h, fun e => absurd e h⟩

/-- Two outcomes that cannot be told apart. -/
private structure Alike (o p : Out) : Prop where
  res : o.res = p.res
  asked : o.asked = p.asked
  state : Same o.state p.state

private theorem welcome_alike {s t : State} (h : Same s t) (ha : s.authMethod = t.authMethod) (hh : s.hello = t.hello) (id : Nat)
    (r : Option AuthResp) (e : GoMap) (a : Option (AuthReq × AuthOut)) : Alike (sendWelcome s id r e a) (sendWelcome t id r e a) := by
  simp only [sendWelcome, hh, ha, h.static]
  split
  · exact ⟨rfl, rfl, .of rfl rfl rfl nofun⟩
  · exact ⟨rfl, rfl, h⟩

private theorem mcs : mCryptoSign ≠ mTicket ∧ mCryptoSign ≠ mCRA ∧ mCRA ≠ mTicket ∧ mCRA ≠ mCryptoSign ∧ mTicket ≠ mCRA ∧ mTicket ≠ mCryptoSign := by
  decide +kernel

private theorem hello_alike {s t : State} (h : Same s t) (env : Env) (realm authID : Str) (ms : Option (List Str)) (extra : GoMap) :
    Alike (recvHello env s realm authID ms extra) (recvHello env t realm authID ms extra) := by
  by_cases hst : s.st = .none
  · have hst' : t.st = .none := by rw [← h.st, hst]
    have key : ∀ am rq rq' rp rp' ch ch', Same { s with st := .none, authMethod := am, hello := some ⟨realm, authID, extra⟩, request := rq, response := rp, challenge := ch }
        { t with st := .none, authMethod := am, hello := some ⟨realm, authID, extra⟩, request := rq', response := rp', challenge := ch' } := fun am _ _ _ _ _ _ =>
      .of rfl h.static h.details nofun
    simp only [recvHello, hst, hst', ne_eq, not_true_eq_false, if_false]
    split
    · exact ⟨rfl, rfl, h⟩
    · rename_i am hsel
      split
      · split
        · exact ⟨rfl, rfl, key ..⟩
        · exact welcome_alike (key ..) rfl rfl ..
        · exact welcome_alike (key ..) rfl rfl ..
      · split
        · rename_i e
          exact ⟨rfl, rfl, rfl, h.static, h.details, fun _ => ⟨rfl, rfl⟩, fun _ e' => absurd (e ▸ e') mcs.2.2.2.2.1, fun _ e' => absurd (e ▸ e') mcs.2.2.2.2.2⟩
        · split
          · rename_i e
            split
            · exact ⟨rfl, rfl, key ..⟩
            · exact ⟨rfl, rfl, key ..⟩
            · split
              · exact ⟨rfl, rfl, key ..⟩
              · split
                · exact ⟨rfl, rfl, key ..⟩
                · exact ⟨rfl, rfl, rfl, h.static, h.details, fun _ => ⟨rfl, rfl⟩, fun _ _ => ⟨rfl, rfl⟩, fun _ e' => absurd (e ▸ e') mcs.2.2.2.1⟩
          · split
            · rename_i e
              split
              · exact ⟨rfl, rfl, key ..⟩
              · split
                · exact ⟨rfl, rfl, key ..⟩
                · split
                  · exact ⟨rfl, rfl, key ..⟩
                  · split
                    · exact ⟨rfl, rfl, key ..⟩
                    · split
                      · exact ⟨rfl, rfl, key ..⟩
                      · exact ⟨rfl, rfl, rfl, h.static, h.details, fun _ => ⟨rfl, rfl⟩, fun _ e' => absurd (e ▸ e') mcs.2.1, fun _ _ => ⟨rfl, rfl⟩⟩
            · exact ⟨rfl, rfl, key ..⟩
  · have hst' : ¬t.st = .none := by rw [← h.st]; exact hst
    simp only [recvHello, ne_eq, hst, hst', not_false_eq_true, if_true]
    exact ⟨rfl, rfl, h⟩

private theorem auth_alike {s t : State} (h : Same s t) (cr : Crypto) (env : Env) (sig : Str) (extra : GoMap) :
    Alike (recvAuthenticate cr env s sig extra) (recvAuthenticate cr env t sig extra) := by
  by_cases hst : s.st = .challengeSent
  · have hst' : t.st = .challengeSent := by rw [← h.st, hst]
    obtain ⟨ha, hh⟩ := h.begun hst
    simp only [recvAuthenticate, hst, hst', ne_eq, not_true_eq_false, if_false, ← ha, ← hh]
    split
    · split
      · exact ⟨rfl, rfl, h⟩
      · split
        · exact ⟨rfl, rfl, h⟩
        · exact welcome_alike h ha hh ..
        · exact welcome_alike h ha hh ..
    · split
      · rename_i e
        obtain ⟨h1, h2⟩ := h.cra hst e
        simp only [← h1, ← h2]
        split
        · exact ⟨rfl, rfl, h⟩
        · split
          · split
            · exact welcome_alike h ha hh ..
            · exact ⟨rfl, rfl, h⟩
          · exact ⟨rfl, rfl, h⟩
      · split
        · rename_i e
          obtain ⟨h1, h2⟩ := h.sign hst e
          simp only [← h1, ← h2]
          split
          · exact ⟨rfl, rfl, h⟩
          · split
            · exact ⟨rfl, rfl, h⟩
            · split
              · exact welcome_alike h ha hh ..
              · exact ⟨rfl, rfl, h⟩
        · exact ⟨rfl, rfl, h⟩
  · have hst' : ¬t.st = .challengeSent := by rw [← h.st]; exact hst
    simp only [recvAuthenticate, ne_eq, hst, hst', not_false_eq_true, if_true]
    exact ⟨rfl, rfl, h⟩

private theorem recv_alike {s t : State} (h : Same s t) (cr : Crypto) (env : Env) (m : Msg) : Alike (recv cr env s m) (recv cr env t m) := by
  simp only [recv, h.st]
  split
  · exact ⟨rfl, rfl, h⟩
  · split
    · exact hello_alike h ..
    · exact auth_alike h ..
    · exact ⟨rfl, rfl, h⟩

private theorem seen_same (cr : Crypto) (later : List (Env × Msg)) : ∀ {s t : State}, Same s t → seen cr s later = seen cr t later := by
  induction later with
  | nil => intro _ _ _; rfl
  | cons x rest ih =>
    intro s t h
    obtain ⟨h1, h2, h3⟩ := recv_alike h cr x.1 x.2
    simp only [seen, h1, h2, sessionDetails, h3.details, ih h3]

private theorem welcome_kind (s : State) (id : Nat) (r : Option AuthResp) (e : GoMap) (a : Option (AuthReq × AuthOut)) :
    ¬refused (sendWelcome s id r e a).res := by
  simp only [sendWelcome]
  split
  · exact nofun
  · exact nofun

/-- **C160** An acceptor: after an error or an ABORT, every later message has the effect it would have had without the refused one. -/
theorem C160_acceptor (cr : Crypto) (s : State) (env : Env) (m : Msg) (hr : refused (recv cr env s m).res) (later : List (Env × Msg)) :
    seen cr (recv cr env s m).state later = seen cr s later := by
  refine seen_same cr later ?_
  simp only [recv] at hr ⊢
  split
  · exact .refl s
  · rename_i hw
    simp only [if_neg hw] at hr
    split
    · rename_i realm authID ms extra _
      simp only [recvHello] at hr ⊢
      by_cases hst : s.st = .none
      · have key : ∀ am hl rq rp ch, Same { s with st := .none, authMethod := am, hello := hl, request := rq, response := rp, challenge := ch } s := fun am _ _ _ _ =>
          .of hst.symm rfl rfl nofun
        simp only [hst, ne_eq, not_true_eq_false, if_false] at hr ⊢
        repeat' split
        all_goals first
          | exact .refl s
          | exact key ..
          | skip
        all_goals first
          | (simp_all [welcome_kind]; done)
          | simp_all [refused, newChallenge, Msg.kind]
      · simp only [ne_eq, hst, not_false_eq_true, if_true]
        exact .refl s
    · simp only [recvAuthenticate] at hr ⊢
      repeat' split
      all_goals first
        | exact .refl s
        | skip
      all_goals simp_all [welcome_kind]
    · exact .refl s

/-- An acceptor that sent a CHALLENGE for a ticket, and the refusal of the ticket. -/
example (cr : Crypto) : let env : Env := ⟨[mTicket], fun _ => .err (str "wrong"), 1, none, none⟩
    let s := (recv cr env (init false) (.hello (str "r") (str "joe") (some [mTicket]) none none)).state
    s.st = .challengeSent ∧ refused (recv cr env s (.authenticate (str "x") none)).res :=
  ⟨rfl, rfl⟩

end Acceptor

namespace Joiner

/-- **C160** A joiner: after an error (also after an ABORT), every later call returns what it would have returned without the refused one. -/
theorem C160_joiner (s : State) (c : Call) (he : (c.run s).2.refused) (later : List Call) : seen (c.run s).1 later = seen s later := by
  have : (c.run s).1 = s := by
    cases c with
    | hello c a =>
      simp only [Call.run, sendHello, Reply.refused] at he ⊢
      split <;> simp_all
    | recv a m =>
      simp only [Call.run, Reply.refused] at he ⊢
      cases m
      case welcome i d =>
        simp only [Joiner.recv, recvWelcome] at he ⊢
        split <;> simp_all
        split at he <;> simp_all
      case challenge m e =>
        simp only [Joiner.recv] at he ⊢
        split <;> simp_all
        split <;> simp_all
      all_goals rfl
  rw [this]

/-- An ABORT. -/
example (a : Auth) : let s : State := { realm := str "r", static := false, st := .helloSent }
    ((Call.recv a (.abort none (str "e") none none)).run s).2.refused := rfl

end Joiner
end Wamp
