import Verif.Props.Net
import Verif.Props.MsgPack
/-!
# C140: frames that are too large
-/
namespace Wamp.Injection
open Wamp Wamp.Spec Wamp.MsgPack

/-! ### Exactly which frames are read as they were written -/

theorem header_wraps (n : Nat) : RawSocket.receiveMessageHeader (RawSocket.sendMessageHeader ⟨0, n⟩) = .ok ⟨0, (n % 2 ^ 24 : Nat)⟩ := by
  have h : RawSocket.sendMessageHeader ⟨0, n⟩ = RawSocket.sendMessageHeader ⟨0, (n % 2 ^ 24 : Nat)⟩ := by
    simp only [RawSocket.sendMessageHeader, RawSocket.intToBytes]
    congr 2
    · congr 1; omega
    · congr 2
      · congr 1; omega
      · congr 1; omega
  rw [h]
  exact (RawSocket.C04_header_roundtrip 0 (n % 2 ^ 24) (by omega)).1

theorem frame_read (p more : Str) : Net.readFrame (Net.frame p ++ more) = some (p.take (p.length % 2 ^ 24), p.drop (p.length % 2 ^ 24) ++ more) := by
  have hl : (RawSocket.sendMessageHeader ⟨0, p.length⟩).length = 4 := rfl
  have h4 : (Net.frame p ++ more).take 4 = RawSocket.sendMessageHeader ⟨0, p.length⟩ := by
    rw [Net.frame, List.append_assoc, List.take_append_of_le_length (by omega), ← hl, List.take_length]
  have h5 : (Net.frame p ++ more).drop 4 = p ++ more := by rw [Net.frame, List.append_assoc, ← hl, List.drop_left]
  have h6 : (Net.frame p ++ more).length = 4 + p.length + more.length := by rw [Net.frame, List.length_append, List.length_append, hl]
  have hm : p.length % 2 ^ 24 ≤ p.length := Nat.mod_le _ _
  rw [Net.readFrame, if_neg (by omega), h4, header_wraps, h5]
  dsimp only
  rw [if_neg (by rw [List.length_append]; omega), Int.toNat_natCast, List.take_append_of_le_length hm, List.drop_append_of_le_length hm]

/-- **C140** (partial) A payload is read as it was written exactly if it has less than `2^24` bytes, whatever follows; nobody checks that it has. -/
theorem C140_fits_partial (p more : Str) : Net.readFrame (Net.frame p ++ more) = some (p, more) ↔ p.length < 2 ^ 24 := by
  rw [frame_read]
  constructor
  · intro h
    simp only [Option.some.injEq, Prod.mk.injEq] at h
    have := congrArg List.length h.1
    rw [List.length_take] at this
    have := Nat.mod_lt p.length (y := 2 ^ 24) (by decide)
    omega
  · intro h
    rw [Nat.mod_eq_of_lt h, List.take_length, List.drop_length, List.nil_append]

/-! ### What happens with the others -/

theorem encL_snoc {order} {l : List Val} {v : Val} {a b : Str} (h1 : encL order l = some a) (h2 : enc order v = some b) : encL order (l ++ [v]) = some (a ++ b) := by
  induction l generalizing a with
  | nil => cases h1; simp [encL, h2]
  | cons x l ih =>
    simp only [encL] at h1
    split at h1
    · rename_i a1 a2 e1 e2
      cases h1
      simp only [List.cons_append, encL, e1, ih e2, List.append_assoc]
    · cases h1

theorem encL_zeros (order) (n : Nat) : encL order (List.replicate n (.int .i8 0)) = some ((List.replicate n [0xd0, 0x00]).flatten) := by
  induction n with
  | zero => rfl
  | succ n ih => rw [List.replicate_succ, List.replicate_succ, encL, ih]; rfl

theorem encL_ones (order) (n : Nat) : encL order (List.replicate n (.int .int 0)) = some (List.replicate n 0x00) := by
  induction n with
  | zero => rfl
  | succ n ih => rw [List.replicate_succ, List.replicate_succ, encL, ih]; rfl

theorem fitsL_zeros (n : Nat) : fitsL (List.replicate n (.int .int 0)) = true := by
  induction n with
  | zero => rfl
  | succ n ih => rw [List.replicate_succ, fitsL, ih]; rfl

theorem wireL_map (leaf : Val → Val) (l : List Val) : wireL leaf l = l.map (wire leaf) := by
  induction l with
  | nil => rfl
  | cons v l ih => rw [wireL, ih]; rfl

/-- The arguments of the attack as the publisher writes them, and as they arrive: the evil bytes and many zeros, which take one byte each at first and then two. -/
def argsOut (evil : Str) (n : Nat) : List Val := .bytes evil :: List.replicate n (.int .int 0)
def argsIn (evil : Str) (n : Nat) : List Val := .bytes evil :: List.replicate n (.int .i8 0)

theorem args_wire (evil : Str) (n : Nat) : (argsOut evil n).map msgpackWire = argsIn evil n := by
  simp [argsOut, argsIn, msgpackWire, wire, msgpackLeaf, msgpackCompactInt, msgpackCompactUint]

theorem args_out (order) (evil : Str) (n : Nat) : enc order (.arr (argsOut evil n)) =
    some (arrHead (n + 1) ++ (binHead evil.length ++ evil ++ List.replicate n 0x00)) := by
  rw [enc, argsOut, encL, encL_ones, enc]
  simp

theorem args_in (order) (evil : Str) (n : Nat) : enc order (.arr (argsIn evil n)) =
    some (arrHead (n + 1) ++ (binHead evil.length ++ evil ++ (List.replicate n [0xd0, 0x00]).flatten)) := by
  rw [enc, argsIn, encL, encL_zeros, enc]
  simp

theorem arrHead_le (n : Nat) : (arrHead n).length ≤ 5 := by
  have : ∀ k m, (Cbor.be k m).length = k := by
    intro k; induction k with
    | zero => intro m; rfl
    | succ k ih => intro m; rw [Cbor.be, List.length_cons, ih]
  rw [arrHead, lenPrefix]
  split
  · simp
  · split <;> simp [this]

theorem binHead_le (n : Nat) : (binHead n).length ≤ 5 := by
  have : ∀ k m, (Cbor.be k m).length = k := by
    intro k; induction k with
    | zero => intro m; rfl
    | succ k ih => intro m; rw [Cbor.be, List.length_cons, ih]
  rw [binHead]
  split
  · simp [this]
  · split <;> simp [this]

/-- The PUBLISH arrives. -/
theorem publish_arrives (order : List (Str × Str) → List (Str × Str)) (horder : ∀ l, (order l).Perm l) (req : Nat) (hreq : req ≤ 2 ^ 53) (topic : Str)
    (ht : topic.length < 2 ^ 20) (evil : Str) (n : Nat) (he : evil.length + n < 2 ^ 24 - 2 ^ 21) :
    ∃ raw, (MsgPack.codec order).serialize (newPublish req none topic (some (argsOut evil n)) none) = .ok raw ∧ raw.length < 2 ^ 24 ∧
      (MsgPack.codec order).deserialize raw = .ok (.publish req (some []) topic (some (argsIn evil n)) none) := by
  have hm : (newPublish req none topic (some (argsOut evil n)) none).marshal = [.u64 16, .u64 req, .map [], .str topic] ++ [.arr (argsOut evil n)] := rfl
  have hfit : Fits (newPublish req none topic (some (argsOut evil n)) none).marshal := by
    have e1 : fits (.arr (argsOut evil n)) = true := by
      have e2 : (argsOut evil n).length = n + 1 := by simp [argsOut]
      rw [fits, e2, argsOut, fitsL, fitsL_zeros, fits]
      simp only [short, decide_eq_true_eq, Bool.and_true, Bool.and_eq_true]
      omega
    have e3 : fits (.u64 req) = true := by simp only [fits, inURange, decide_eq_true_eq]; omega
    have e4 : fits (.str topic) = true := by simp only [fits, short, decide_eq_true_eq]; omega
    have e5 : fits (.map []) = true := by decide
    have e6 : fits (.u64 16) = true := by decide
    rw [Fits, hm, fits]
    simp only [List.cons_append, List.nil_append, fitsL, e1, e3, e4, e5, e6, Bool.and_true]
    rfl
  obtain ⟨raw, h1, h2⟩ := roundtrip (wire_norm _) (MsgPack.codec order) Fits (MsgPack.C96_faithful order horder) _ hfit
    (by simp [newPublish, Transmissible, orEmpty]) (fun n _ => msgpack_ids n)
  refine ⟨raw, h1, ?_, ?_⟩
  · have hs : encL order [.u64 16, .u64 req, .map [], .str topic] = some ((0xcf :: Cbor.be 8 16) ++ ((0xcf :: Cbor.be 8 req) ++ ((mapHead 0 ++ (order []).flatMap fun p => strHead p.1.length ++ p.1 ++ p.2) ++ (strHead topic.length ++ topic)))) := by
      simp [encL, enc, encM]
    have h3 : (MsgPack.codec order).enc (newPublish req none topic (some (argsOut evil n)) none).marshal = some raw := by
      rw [Codec.serialize] at h1
      cases hx : (MsgPack.codec order).enc (newPublish req none topic (some (argsOut evil n)) none).marshal with
      | none => rw [hx] at h1; cases h1
      | some r => rw [hx] at h1; cases h1; rfl
    rw [show (MsgPack.codec order).enc = fun l => enc order (.arr l) from rfl] at h3
    simp only [hm, enc, encL_snoc hs (args_out order evil n), Option.map_some, Option.some.injEq] at h3
    have ho : order [] = [] := List.Perm.eq_nil (horder [])
    have be : ∀ k m, (Cbor.be k m).length = k := by
      intro k; induction k with
      | zero => intro m; rfl
      | succ k ih => intro m; rw [Cbor.be, List.length_cons, ih]
    have hst : (strHead topic.length).length ≤ 5 := by
      rw [strHead, lenPrefix]
      split
      · simp
      · split
        · simp [be]
        · split <;> simp [be]
    have l1 := arrHead_le (n + 1)
    have l2 := binHead_le evil.length
    have l3 := arrHead_le ([Val.u64 16, .u64 req, .map [], .str topic] ++ [Val.arr (argsOut evil n)]).length
    have l4 : (mapHead 0).length = 1 := rfl
    rw [← h3]
    simp only [List.length_append, List.length_cons, be, ho, List.flatMap_nil, List.length_nil, List.length_replicate, l4] at l3 ⊢
    omega
  · rw [h2]
    have := args_wire evil n
    rw [msgpackWire] at this
    simp [newPublish, received, orEmpty, onMap, onDict, onArgs, this]

/-- **C140** (refuted) Whoever may publish to a topic can make every subscriber that uses MsgPack read frames of the publisher's choice as frames of the router.  All it
takes is a PUBLISH of less than `2^24` bytes (a list of small numbers takes twice as many bytes in the EVENT), of which the header of the EVENT does not hold the size. -/
theorem C140_injection (order : List (Str × Str) → List (Str × Str)) (horder : ∀ l, (order l).Perm l)
    (w : Str → Str → Bool) (b b' : Broker.State) (sid req : Nat) (topic : Str) (wcOrder : List Str) (subOrder recipients : List Nat) (sub pub : Nat) (d : GoMap)
    (hreq : req ≤ 2 ^ 53) (ht : topic.length < 2 ^ 20)
    -- an ordinary publication without arguments would be delivered
    (hp : Broker.publish w b sid req (some []) topic none none wcOrder subOrder = (b', .ok ⟨some (.event sub pub d none none), recipients, none⟩))
    (e0 : Str) (he0 : (MsgPack.codec order).serialize (.event sub pub d none none) = .ok e0) (hl0 : e0.length < 2 ^ 23)
    (evil : Str) (hevil : evil.length < 2 ^ 22) :
    ∃ args raw m p q rest,
      (MsgPack.codec order).serialize (newPublish req none topic args none) = .ok raw ∧ raw.length < 2 ^ 24 ∧
      (MsgPack.codec order).deserialize raw = .ok (.publish req (some []) topic m none) ∧
      Broker.publish w b sid req (some []) topic m none wcOrder subOrder = (b', .ok ⟨some (.event sub pub d m none), recipients, none⟩) ∧
      (MsgPack.codec order).serialize (.event sub pub d m none) = .ok p ∧
      Net.readFrame (Net.frame p) = some (q, evil ++ rest) := by
  -- an even number of evil bytes
  obtain ⟨ev, pad, ⟨hpad, hpl⟩, n, hn⟩ : ∃ ev pad : Str, (ev = evil ++ pad ∧ pad.length ≤ 1) ∧ ∃ n, ev.length + 2 * n = 2 ^ 24 := by
    by_cases h : evil.length % 2 = 0
    · exact ⟨evil, [], ⟨(List.append_nil _).symm, by simp⟩, (2 ^ 24 - evil.length) / 2, by omega⟩
    · exact ⟨evil ++ [0], [0], ⟨rfl, by simp⟩, (2 ^ 24 - (evil.length + 1)) / 2, by rw [List.length_append, List.length_singleton]; omega⟩
  have hpub : ∀ a, Broker.publish w b sid req (some []) topic a none wcOrder subOrder = (b', .ok ⟨some (.event sub pub d a none), recipients, none⟩) := by
    intro a
    revert hp
    unfold Broker.publish
    split
    · intro hp; cases hp
    dsimp only
    split
    · intro hp; cases hp
    split
    · intro hp; cases hp
    split <;> intro hp <;> cases hp
    rfl
  have hevl : ev.length ≤ 2 ^ 22 := by rw [hpad, List.length_append]; omega
  obtain ⟨raw, r1, r2, r3⟩ := publish_arrives order horder req hreq topic ht ev n (by omega)
  have hs : ∃ s0, encL order [.u64 36, .u64 sub, .u64 pub, Val.ofMap d] = some s0 ∧ s0.length < 2 ^ 23 := by
    rw [Codec.serialize] at he0
    have hx : (MsgPack.codec order).enc (Msg.event sub pub d none none).marshal = (encL order [.u64 36, .u64 sub, .u64 pub, Val.ofMap d]).map fun s => arrHead 4 ++ s := by
      rw [show (MsgPack.codec order).enc = fun l => enc order (.arr l) from rfl]
      simp [Msg.marshal, marshalTail, enc]
    rw [hx] at he0
    cases he : encL order [.u64 36, .u64 sub, .u64 pub, Val.ofMap d] with
    | none => rw [he] at he0; cases he0
    | some s0 =>
      rw [he] at he0
      cases he0
      rw [List.length_append] at hl0
      exact ⟨s0, rfl, by omega⟩
  obtain ⟨s0, hs0, hls⟩ := hs
  obtain ⟨front, hfront⟩ : ∃ x : Str, x = arrHead 5 ++ s0 ++ arrHead (n + 1) ++ binHead ev.length := ⟨_, rfl⟩
  obtain ⟨tail, htail⟩ : ∃ x : Str, x = (List.replicate n [(0xd0 : UInt8), 0x00]).flatten := ⟨_, rfl⟩
  have hp2 : (MsgPack.codec order).serialize (.event sub pub d (some (argsIn ev n)) none) = .ok (front ++ (ev ++ tail)) := by
    rw [Codec.serialize, show (MsgPack.codec order).enc = fun l => enc order (.arr l) from rfl]
    have hmar : (Msg.event sub pub d (some (argsIn ev n)) none).marshal = [.u64 36, .u64 sub, .u64 pub, Val.ofMap d] ++ [.arr (argsIn ev n)] := rfl
    simp only [hmar, enc, encL_snoc hs0 (args_in order ev n), Option.map_some, Res.ofOption, hfront, htail]
    simp only [List.length_append, List.length_cons, List.length_nil, List.append_assoc]
  have htl : tail.length = 2 * n := by simp [htail, Nat.mul_comm]
  have hfl : front.length < 2 ^ 24 := by
    have l1 := arrHead_le (n + 1)
    have l2 := binHead_le ev.length
    have l3 := arrHead_le 5
    simp only [hfront, List.length_append]
    omega
  have hmod : (front ++ (ev ++ tail)).length % 2 ^ 24 = front.length := by
    rw [List.length_append, List.length_append, htl, hn, Nat.add_mod_right, Nat.mod_eq_of_lt hfl]
  have hr := frame_read (front ++ (ev ++ tail)) []
  rw [List.append_nil, List.append_nil, hmod, List.take_left, List.drop_left] at hr
  exact ⟨some (argsOut ev n), raw, some (argsIn ev n), _, front, pad ++ tail, r1, r2, r3, hpub _, hp2, by rw [hr, hpad, List.append_assoc]⟩

/-- **C140** (refuted) In particular the subscriber reads any message at all: the frame it reads after the (cut) EVENT holds the bytes `f` of the
publisher's choice, for example those of a message only the router should send. -/
theorem C140_forged (order : List (Str × Str) → List (Str × Str)) (horder : ∀ l, (order l).Perm l)
    (w : Str → Str → Bool) (b b' : Broker.State) (sid req : Nat) (topic : Str) (wcOrder : List Str) (subOrder recipients : List Nat) (sub pub : Nat) (d : GoMap)
    (hreq : req ≤ 2 ^ 53) (ht : topic.length < 2 ^ 20)
    (hp : Broker.publish w b sid req (some []) topic none none wcOrder subOrder = (b', .ok ⟨some (.event sub pub d none none), recipients, none⟩))
    (e0 : Str) (he0 : (MsgPack.codec order).serialize (.event sub pub d none none) = .ok e0) (hl0 : e0.length < 2 ^ 23)
    (f : Str) (hlf : f.length < 2 ^ 21) :
    ∃ args raw m p q rest rest',
      (MsgPack.codec order).serialize (newPublish req none topic args none) = .ok raw ∧ raw.length < 2 ^ 24 ∧
      (MsgPack.codec order).deserialize raw = .ok (.publish req (some []) topic m none) ∧
      Broker.publish w b sid req (some []) topic m none wcOrder subOrder = (b', .ok ⟨some (.event sub pub d m none), recipients, none⟩) ∧
      (MsgPack.codec order).serialize (.event sub pub d m none) = .ok p ∧
      Net.readFrame (Net.frame p) = some (q, rest) ∧ Net.readFrame rest = some (f, rest') := by
  have hl : (Net.frame f).length < 2 ^ 22 := by
    rw [Net.frame, List.length_append, show (RawSocket.sendMessageHeader ⟨0, f.length⟩).length = 4 from rfl]
    omega
  obtain ⟨args, raw, m, p, q, rest, h1, h2, h3, h4, h5, h6⟩ :=
    C140_injection order horder w b b' sid req topic wcOrder subOrder recipients sub pub d hreq ht hp e0 he0 hl0 (Net.frame f) hl
  exact ⟨args, raw, m, p, q, _, rest, h1, h2, h3, h4, h5, h6, (C140_fits_partial f rest).2 (by omega)⟩

/-! ### A case that meets the hypotheses -/

namespace Demo
def details (n : Nat) : SessionDetails := newSessionDetails n (str "realm1") (str "joe") (str "user") (str "ticket") false none none
/-- Two sessions, the second one has subscribed. -/
def broker : Broker.State :=
  (Broker.receive (Broker.addSession (Broker.addSession Broker.init (details 1)).1 (details 2)).1 2 (newSubscribe 1 none (str "news"))).1
end Demo

example : ∃ b' sub pub e0, Broker.publish (fun _ _ => false) Demo.broker 1 7 (some []) (str "news") none none [] [2] =
      (b', .ok ⟨some (.event sub pub (some []) none none), [2], none⟩) ∧
    (MsgPack.codec id).serialize (.event sub pub (some []) none none) = .ok e0 ∧ e0.length < 2 ^ 23 ∧
    ∃ f, (MsgPack.codec id).serialize (newEvent 1 1 none (some [.str (str "pay joe")]) none) = .ok f ∧ f.length < 2 ^ 21 :=
  ⟨_, _, _, _, rfl, rfl, by decide +kernel, _, rfl, by decide +kernel⟩

end Wamp.Injection
