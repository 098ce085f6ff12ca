import Verif.Model.AbortText
import Verif.Lemmas.Base
import Verif.Props.Authenticator
import Verif.Props.OneFormat
import Verif.Props.Formats
import Verif.Props.FormatsJson
/-!
# C147: a refused client is told why
-/
namespace Wamp.Refusal
open Wamp Wamp.Spec Wamp.OneFormat

/-- What `fmt.Sprintf("%v", v)` is known to do: it shows a string as it is. -/
def Shows (shown : Val → Str) : Prop := ∀ s, shown (.str s) = s

/-- A text that the format can carry: UTF-8 with JSON and CBOR, any bytes with MsgPack; no longer than 4 GB. -/
def Carries (i : Format) (t : Str) : Prop := (i ≠ .msgpack → Formats.Utf8 t) ∧ t.length < 2 ^ 32

/-- The client that is given these bytes, in whatever state it is and with whatever authenticator, returns an error, with this text, and its state is as before. -/
def Learns (shown : Val → Str) (c : Codec) (b text : Str) : Prop :=
  (∀ (a : Joiner.Auth) (j : Joiner.State), Joiner.receive c a j b = (j, .err)) ∧ ∀ order, Joiner.receiveText shown order c b = some text

/-- An ABORT whose args are one text, or nothing. -/
private def refusal (r : Str) (t : Option Str) : Msg := .abort (some []) r (t.map fun t => [.str t]) none

private theorem carried {i : Format} {order : List (Str × Str) → List (Str × Str)} (horder : ∀ l, (order l).Perm l) {r : Str} {t : Option Str}
    (hr : Carries i r) (ht : ∀ x, t = some x → Carries i x) : ∃ b d, (i.codec order).serialize (refusal r t) = .ok b ∧
      (i.codec order).deserialize b = .ok (.abort d r (t.map fun t => [.str t]) none) := by
  have tr : Transmissible (refusal r t) := ⟨by simp, by simp⟩
  have l1 : r.length < 2 ^ 64 := by have := hr.2; omega
  have key : ∀ norm : Val → Val, WireNorm norm → ∃ d, received norm (refusal r t) = .abort d r (t.map fun t => [.str t]) none := by
    intro norm hn
    refine ⟨some [], ?_⟩
    cases t with
    | none => rfl
    | some x => simp only [refusal, received, onArgs, onMap, Option.map_some, Option.map_none, List.map, hn.str, onDict]
  cases i with
  | json =>
    have v1 := (Formats.C124_text r).2 (hr.1 (by decide))
    obtain ⟨b, e1, e2⟩ := Json.C97_roundtrip (refusal r t) (by
      cases t with
      | none => simp [refusal, Json.Fits, Msg.marshal, marshalTailAbort, Val.ofMap, Json.fits, Json.fitsL, Json.fitsM, v1, Cbor.sortedKeys]
      | some x =>
        have v2 := (Formats.C124_text x).2 ((ht x rfl).1 (by decide))
        simp [refusal, Json.Fits, Msg.marshal, marshalTailAbort, Val.ofMap, Json.fits, Json.fitsL, Json.fitsM, v1, v2, Cbor.sortedKeys]) tr (by simp [refusal, ids])
    obtain ⟨d, hd⟩ := key _ (wire_norm jsonLeaf)
    exact ⟨b, d, e1, e2.trans (congrArg Res.ok hd)⟩
  | cbor =>
    have v1 := (Formats.C124_text r).2 (hr.1 (by decide))
    obtain ⟨b, e1, e2⟩ := Cbor.C95_roundtrip order horder (refusal r t) (by
      cases t with
      | none => simp [refusal, Cbor.Fits, Msg.marshal, marshalTailAbort, Val.ofMap, Cbor.fits, Cbor.fitsL, Cbor.fitsM, v1, Cbor.text, l1, Cbor.sortedKeys]
      | some x =>
        have v2 := (Formats.C124_text x).2 ((ht x rfl).1 (by decide))
        have l2 : x.length < 2 ^ 64 := by have := (ht x rfl).2; omega
        simp [refusal, Cbor.Fits, Msg.marshal, marshalTailAbort, Val.ofMap, Cbor.fits, Cbor.fitsL, Cbor.fitsM, v1, v2, Cbor.text, l1, l2, Cbor.sortedKeys]) tr
    obtain ⟨d, hd⟩ := key _ (wire_norm cborLeaf)
    exact ⟨b, d, e1, e2.trans (congrArg Res.ok hd)⟩
  | msgpack =>
    obtain ⟨b, e1, e2⟩ := MsgPack.C96_roundtrip order horder (refusal r t) (by
      cases t with
      | none => simp [refusal, MsgPack.Fits, Msg.marshal, marshalTailAbort, Val.ofMap, MsgPack.fits, MsgPack.fitsL, MsgPack.fitsM, MsgPack.short, hr.2, Cbor.sortedKeys, MsgPack.inURange]
      | some x =>
        have l2 := (ht x rfl).2
        simp [refusal, MsgPack.Fits, Msg.marshal, marshalTailAbort, Val.ofMap, MsgPack.fits, MsgPack.fitsL, MsgPack.fitsM, MsgPack.short, hr.2, l2, Cbor.sortedKeys, MsgPack.inURange]) tr
    obtain ⟨d, hd⟩ := key _ (wire_norm msgpackLeaf)
    exact ⟨b, d, e1, e2.trans (congrArg Res.ok hd)⟩

private theorem failed_utf8 : Formats.Utf8 (str "wamp.error.authentication_failed") := (Formats.C124_text _).1 (by decide +kernel)

private theorem learns {i : Format} {order : List (Str × Str) → List (Str × Str)} (horder : ∀ l, (order l).Perm l) {shown : Val → Str} (hs : Shows shown)
    {t : Option Str} (ht : ∀ x, t = some x → Carries i x) : ∃ b, (i.codec order).serialize (refusal (str "wamp.error.authentication_failed") t) = .ok b ∧
      Learns shown (i.codec order) b (str "wamp.error.authentication_failed" ++ match t with | some t => str ": " ++ t | none => []) := by
  obtain ⟨b, d, e1, e2⟩ := carried (i := i) horder (r := str "wamp.error.authentication_failed") ⟨fun _ => failed_utf8, by decide +kernel⟩ ht
  refine ⟨b, e1, fun a j => ?_, fun o => ?_⟩
  · simp only [Joiner.receive, e2, Joiner.recv, Res.bind]
  · simp only [Joiner.receiveText, e2, Joiner.recvText]
    cases t with
    | none => simp [Joiner.abortText]
    | some t => simp [Joiner.abortText, Joiner.join, hs t]

/-- **C147** The authenticator refuses with an error: with every serializer the bytes of the answer tell the client the text of that error. -/
theorem C147_refused {cr : Crypto} {static : Bool} {h : List Acceptor.Call} {w : Acceptor.Call} {s : Acceptor.State} {q : AuthReq} {t : Str}
    (hh : Acceptor.Hist cr static (w :: h) s) (ha : w.asked = some (q, .err t))
    (i : Format) {order : List (Str × Str) → List (Str × Str)} (horder : ∀ l, (order l).Perm l) (hc : Carries i t) {shown : Val → Str} (hs : Shows shown) :
    ∃ m b, w.out = .ok m ∧ (i.codec order).serialize m = .ok b ∧
      Learns shown (i.codec order) b (str "wamp.error.authentication_failed: " ++ t) := by
  obtain ⟨b, e1, e2⟩ := learns (i := i) horder hs (t := some t) (by rintro x ⟨⟩; exact hc)
  refine ⟨_, b, (Acceptor.C128_refused hh ha).1, e1, ?_⟩
  rwa [show str "wamp.error.authentication_failed: " = str "wamp.error.authentication_failed" ++ str ": " by decide +kernel, List.append_assoc]

/-- **C147** None of the proposed methods is allowed: the client learns which methods the server does not have. -/
theorem C147_method {cr : Crypto} {static : Bool} {h : List Acceptor.Call} {w : Acceptor.Call} {s : Acceptor.State} {realm authID : Str} {ms : List Str}
    {ex : GoMap} (hh : Acceptor.Hist cr static (w :: h) s) (h0 : Acceptor.OnlyAborts h) (hm : Acceptor.IsHello w.msg realm authID (some ms) ex)
    (hne : ms ≠ []) (hno : ∀ m ∈ ms, m ∉ w.env.methods)
    (i : Format) {order : List (Str × Str) → List (Str × Str)} (horder : ∀ l, (order l).Perm l)
    (hc : Carries i (str "server does not have [" ++ (str " ").intercalate ms ++ str "] auth enabled")) {shown : Val → Str} (hs : Shows shown) :
    ∃ m b, w.out = .ok m ∧ (i.codec order).serialize m = .ok b ∧ Learns shown (i.codec order) b
      (str "wamp.error.authentication_failed: server does not have [" ++ (str " ").intercalate ms ++ str "] auth enabled") := by
  obtain ⟨b, e1, e2⟩ := learns (i := i) horder hs (t := some (str "server does not have [" ++ (str " ").intercalate ms ++ str "] auth enabled"))
    (by rintro x ⟨⟩; exact hc)
  refine ⟨_, b, (Acceptor.C28_refused hh h0 hm hne hno).1, e1, ?_⟩
  rw [show str "wamp.error.authentication_failed: server does not have [" =
    str "wamp.error.authentication_failed" ++ (str ": " ++ str "server does not have [") by decide +kernel]
  simpa only [List.append_assoc] using e2

/-- **C147** An AUTHENTICATE is answered with ABORT although the authenticator was not asked, so the signature is wrong: the client learns no more than that. -/
theorem C147_signature {cr : Crypto} {static : Bool} {h : List Acceptor.Call} {w : Acceptor.Call} {s : Acceptor.State} {sig : Str} {ex : GoMap}
    (hh : Acceptor.Hist cr static (w :: h) s) (hm : w.msg = .authenticate sig ex) (ha : w.asked = none) (hk : w.answered .abort)
    (i : Format) {order : List (Str × Str) → List (Str × Str)} (horder : ∀ l, (order l).Perm l) {shown : Val → Str} (hs : Shows shown) :
    ∃ m b, w.out = .ok m ∧ (i.codec order).serialize m = .ok b ∧ Learns shown (i.codec order) b (str "wamp.error.authentication_failed") := by
  obtain ⟨b, e1, e2⟩ := learns (i := i) (t := none) horder hs (by rintro x ⟨⟩)
  refine ⟨_, b, ?_, e1, by simpa only [List.append_nil] using e2⟩
  cases hh with
  | @call h s env m hh =>
    simp only [Acceptor.callOf] at hm ha
    subst hm
    obtain ⟨m, hm, hk⟩ := hk
    simp only [Acceptor.callOf] at hm ⊢
    unfold Acceptor.recv at hm ha ⊢
    split at hm
    · cases hm
    · rename_i hst
      rw [if_neg hst] at ha ⊢
      simp only at hm ha ⊢
      have hw : ∀ (s' : Acceptor.State) id r e x m, (Acceptor.sendWelcome s' id r e x).res = .ok m → m.kind = .welcome := by
        intro s' id r e x m; unfold Acceptor.sendWelcome; split
        · intro h; cases h; rfl
        · intro h; cases h
      revert hm ha
      fun_cases Acceptor.recvAuthenticate cr env s sig ex
      all_goals intro ha hm
      all_goals first | (cases hm; done) | (have := hw _ _ _ _ _ _ hm; rw [hk] at this; cases this) | (cases ha; done) | rfl

private theorem join_mem {sep : Str} {x : Str} : ∀ {l : List Str}, x ∈ l → x <:+: Joiner.join sep l
  | [a], h => by cases List.mem_singleton.1 h; exact List.infix_refl _
  | a :: b :: rest, h => by
    rw [Joiner.join]
    rcases List.mem_cons.1 h with rfl | h
    · exact ⟨[], sep ++ Joiner.join sep (b :: rest), by simp⟩
    · obtain ⟨p, q, e⟩ := join_mem (sep := sep) h
      exact ⟨a ++ sep ++ p, q, by rw [← e]; simp⟩

/-- **C147** Every ABORT, whoever sent it: the text begins with the reason, and every argument and every keyword argument is in it; and when there are none, it is the
reason alone. -/
theorem C147_any_abort (shown : Val → Str) (order : List Str) (d : GoMap) (reason : Str) (args : GoSlice) (kwargs : GoMap) :
    ∃ text, Joiner.recvText shown order (.abort d reason args kwargs) = some text ∧ reason <+: text ∧
      (∀ l, args = some l → ∀ v ∈ l, shown v <:+: text) ∧
      (∀ k v, kwargs.get k = some v → (k ++ str "=" ++ shown v) <:+: text) ∧
      (args.getD [] = [] → kwargs.getD [] = [] → text = reason) := by
  refine ⟨_, rfl, ⟨_, (List.append_assoc ..).symm⟩, ?_, ?_, ?_⟩
  · rintro l rfl v hv
    have hl : 0 < l.length := List.length_pos_of_mem hv
    simp only [Joiner.abortText, Option.getD_some, if_pos hl]
    obtain ⟨p, q, e⟩ := join_mem (sep := str ", ") (List.mem_map_of_mem (f := shown) hv)
    rw [← e]
    generalize (if 0 < (kwargs.getD []).length then _ else []) = x
    exact ⟨reason ++ str ": " ++ p, q ++ x, by simp only [List.append_assoc]⟩
  · intro k v hk
    cases kwargs with
    | none => cases hk
    | some m =>
      have hmem : k ∈ m.map Prod.fst := by
        have key : ∀ d : Dict, dget d k = some v → k ∈ d.map Prod.fst := by
          intro d
          induction d with
          | nil => intro h; cases h
          | cons p d ih =>
            intro h
            rw [dget] at h
            split at h
            · rename_i e; rw [e]; exact List.mem_cons_self
            · exact List.mem_cons_of_mem _ (ih h)
        exact key m hk
      have hl : 0 < m.length := by
        have := List.length_pos_of_mem hmem
        rwa [List.length_map] at this
      simp only [Joiner.abortText, Option.getD_some, if_pos hl]
      have := join_mem (sep := str ", ") (List.mem_map_of_mem (f := fun key => key ++ str "=" ++ shown ((GoMap.get (some m) key).getD .nil))
        ((mem_arrange order _ k).2 hmem))
      simp only [hk, Option.getD_some] at this
      obtain ⟨p, q, e⟩ := this
      rw [← e]
      generalize (if 0 < (args.getD []).length then _ else []) = x
      exact ⟨reason ++ x ++ str ": " ++ p, q, by simp only [List.append_assoc]⟩
  · intro h1 h2
    simp [Joiner.abortText, h1, h2]

/-! Cases that meet the hypotheses. -/

/-- A login with a ticket that the authenticator refuses. -/
example : ∃ w h s q, Acceptor.Hist Acceptor.Demo.cr false (w :: h) s ∧ w.asked = some (q, .err (str "no such ticket")) ∧
    ∀ i, Carries i (str "no such ticket") := by
  refine ⟨_, _, _, _, Acceptor.runAll_hist Acceptor.Demo.cr false
    [({ Acceptor.Demo.env [] with methods := [mTicket], authn := fun _ => .err (str "no such ticket") }, .hello (str "r") (str "joe") (some [mTicket]) none none),
     ({ Acceptor.Demo.env [] with methods := [mTicket], authn := fun _ => .err (str "no such ticket") }, .authenticate (str "t") none)], rfl, fun i => ⟨fun _ => ?_, ?_⟩⟩
  · exact (Formats.C124_text _).1 (by decide +kernel)
  · decide +kernel

set_option maxRecDepth 20000 in
/-- A WAMP-CRA login with a wrong signature. -/
example : ∃ w h s sig ex, Acceptor.Hist Acceptor.Demo.cr false (w :: h) s ∧ w.msg = .authenticate sig ex ∧ w.asked = none ∧ w.answered .abort :=
  ⟨_, _, _, _, _, Acceptor.runAll_hist Acceptor.Demo.cr false (Acceptor.Demo.craRun.take 2), rfl, rfl, ⟨_, rfl, rfl⟩⟩

/-- What the client gets for an ABORT with arguments and a keyword argument. -/
example : Joiner.recvText (fun | .str s => s | _ => str "?") [] (.abort none (str "wamp.close.x") (some [.str (str "a"), .str (str "b")]) (some [(str "k", .str (str "v"))])) =
    some (str "wamp.close.x: a, b: k=v") := by decide +kernel

end Wamp.Refusal
