import Verif.Props.Net
/-!
# C108: where messages come from, over byte streams

C105, C106 and C107 for sessions that use JSON, CBOR or MsgPack over raw sockets, and what this says about the contents.
-/
namespace Wamp.Net
open Wamp Wamp.System Wamp.Spec Wamp.Session

variable {w : Str → Str → Bool} {k : Nat → Kind}

/-- What client `p` has sent, as the router reads it; oldest first. -/
def heard (k : Nat → Kind) (n : Net) (p : Nat) : List Msg := ((n.core.sent p).reverse).map (received (k p).norm)

/-- The messages `read` by `s` have their causes, one each, among the messages sent; those of the same client in the order in which that
client sent them.  (A list of senders, messages as the router read them, messages as `s` read them.) -/
def Traced (w : Str → Str → Bool) (k : Nat → Kind) (n : Net) (s : Nat) (read : List Msg) : Prop :=
  ∃ src : List (Nat × Msg × Msg), src.map (fun q => q.2.2) = read ∧
    (∀ q ∈ src, ∃ out, q.2.2 = received (k s).norm out ∧ Caused w (heard k n) s q.1 q.2.1 out) ∧
    ∀ p, ((src.filter fun q => q.1 = p).map fun q => q.2.1).Sublist (heard k n p)

theorem isEvent_received (norm : Val → Val) (m : Msg) : isEvent (received norm m) = isEvent m := by cases m <;> rfl

theorem traced_of {n : Net} {l : Log} {s : Nat} {P : Msg → Bool} (hP : ∀ m, P (received (k s).norm m) = P m)
    (hsent : ∀ p, l.sys.sent p = (n.core.sent p).map (received (k p).norm)) (hgot : n.got s = (l.got s).map (received (k s).norm))
    (h : System.Traced w l s ((l.inbox s).filter P)) : Traced w k n s ((n.got s).filter P) := by
  obtain ⟨src, h1, h2, h3⟩ := h
  have hh : ∀ p, l.outbox p = heard k n p := by
    intro p; simp only [Log.outbox, heard, hsent, List.map_reverse]
  have hc : ∀ {p m out}, Caused w l.sys.sent s p m out → Caused w (heard k n) s p m out := by
    intro p m out h
    refine h.mono fun p' m' hm' => ?_
    rw [← hh]; exact List.mem_reverse.2 hm'
  have hg : (n.got s).filter P = ((l.got s).filter P).map (received (k s).norm) := by
    rw [hgot, List.filter_map]
    congr 1
    apply List.filter_congr
    intro m _; exact hP m
  have hp : ((l.got s).filter P) = (src.take ((l.got s).filter P).length).map fun q => q.2.2 := by
    rw [List.map_take, h1, Log.inbox, List.filter_append, List.take_left']; rfl
  have ht : (src.take ((l.got s).filter P).length).Sublist src := List.take_sublist _ _
  refine ⟨(src.take ((l.got s).filter P).length).map fun q => (q.1, q.2.1, received (k s).norm q.2.2), ?_, ?_, ?_⟩
  · rw [hg]
    conv => rhs; rw [hp]
    simp only [List.map_map]
    rfl
  · intro q hq
    obtain ⟨q', hq', rfl⟩ := List.mem_map.1 hq
    exact ⟨q'.2.2, rfl, hc (h2 q' (ht.subset hq'))⟩
  · intro p
    rw [List.filter_map, List.map_map, ← hh]
    exact ((ht.filter _).map _).trans (h3 p)

theorem run_log {n : Net} (h : Run w k n) : ∃ l : Log, Log.Reach w l ∧ Sim (fun s => (k s).codec) (fun s => (k s).norm) (fun s => (k s).Fit) n l.sys ∧
    ∀ s, n.got s = (l.got s).map (received (k s).norm) := by
  obtain ⟨x, got, h1, h2, h3⟩ := reach_log (fun s => (k s).carried) h
  exact ⟨⟨x, got⟩, h1, h2, h3⟩

/-- **C108** The EVENTs a client has read come from PUBLISHes that clients sent, each from one of its own, for a topic the client has asked
for; those from the same publisher in the order in which it sent them. -/
theorem C108_events {n : Net} (h : Run w k n) (hb : n.core.bh.length ≤ 2 ^ 53) (hd : n.core.dh.length ≤ 2 ^ 53) (s : Nat) :
    Traced w k n s ((n.got s).filter isEvent) := by
  obtain ⟨l, h1, h2, h3⟩ := run_log h
  exact traced_of (isEvent_received _) h2.sent (h3 s) (C105_events h1 (by rwa [h2.bh]) (by rwa [h2.dh]) s)

/-- **C108** And all other messages from requests, CALLs, YIELDs and ERRORs. -/
theorem C108_answers {n : Net} (h : Run w k n) (hb : n.core.bh.length ≤ 2 ^ 53) (hd : n.core.dh.length ≤ 2 ^ 53) (s : Nat) :
    Traced w k n s ((n.got s).filter fun m => !isEvent m) := by
  obtain ⟨l, h1, h2, h3⟩ := run_log h
  exact traced_of (fun m => by rw [isEvent_received]) h2.sent (h3 s) (C106_answers h1 (by rwa [h2.bh]) (by rwa [h2.dh]) s)

theorem publications_received (norm : Val → Val) (l : List Msg) : publications (l.map (received norm)) = publications l := by
  induction l with
  | nil => rfl
  | cons m l ih =>
    simp only [publications, List.map_cons, List.filterMap_cons] at ih ⊢
    cases m <;> simp only [received, ih]

theorem publications_filter (l : List Msg) : publications (l.filter isEvent) = publications l := by
  induction l with
  | nil => rfl
  | cons m l ih =>
    cases m <;> simp only [publications, List.filter_cons, isEvent, List.filterMap_cons, if_true, Bool.false_eq_true, if_false] at ih ⊢ <;> rw [ih]

/-- **C108** All clients read EVENTs in the order of their publication IDs, each once. -/
theorem C108_order {n : Net} (h : Run w k n) (hb : n.core.bh.length ≤ 2 ^ 53) (s : Nat) : (publications (n.got s)).Pairwise (· < ·) := by
  obtain ⟨l, h1, h2, h3⟩ := run_log h
  obtain ⟨events, e1, -, e2⟩ := C107_total_order h1 (by rwa [h2.bh])
  rw [h3, publications_received, ← publications_filter]
  refine e1.sublist (List.Sublist.filterMap _ (.trans ?_ (e2 s)))
  exact (List.sublist_append_left _ _).filter _

/-! ### Contents -/

theorem act_sent {x y : Sys} {a : Action} (h : x.act w a = some y) : y.sent = x.sent ∨ ∃ s d m, a = .send s d m ∧ y.sent = upd x.sent s (m :: x.sent s) := by
  cases a <;> simp only [Sys.act] at h
  case join d =>
    split at h
    · cases h
    · obtain ⟨h1, rfl⟩ := onDealer_some h; exact .inl rfl
  case leave s o o' => obtain ⟨h1, rfl⟩ := onDealer_some h; exact .inl rfl
  case disclose p c => obtain ⟨h1, rfl⟩ := onDealer_some h; exact .inl rfl
  case send s data m =>
    split at h
    · split at h
      · cases h; exact .inr ⟨s, data, m, rfl, rfl⟩
      · cases h
    · cases h
  case deliver s =>
    split at h
    · cases h
    · cases h; exact .inl rfl
  case route s wo so rnd =>
    split at h
    · cases h
    · obtain ⟨o, e, -⟩ := handle_links (x := _) (y := _) s _ wo so rnd rfl rfl rfl rfl h
      have := congrArg Sys.sent e
      exact .inl this

/-- Clients send what their serializers can carry. -/
theorem sent_fit {n : Net} (h : Run w k n) : ∀ s, ∀ m ∈ n.core.sent s, (k s).Fit m := by
  induction h with
  | new => intro s m hm; simp [Net.new, Sys.new] at hm
  | step _ hs ih =>
    cases hs with
    | admin a ha hy =>
      rcases act_sent hy with e | ⟨s, d, m, rfl, -⟩
      · simp only [e]; exact ih
      · rcases ha with ⟨_, h⟩ | ⟨_, _, _, h⟩ | ⟨_, _, h⟩ <;> cases h
    | send s m b hb hf hy =>
      rcases act_sent hy with e | ⟨s', d, m', e1, e⟩
      · simp only [Sys.emptied, e]; exact ih
      · cases e1
        simp only [Sys.emptied, e]
        intro s' m' hm'
        simp only [upd] at hm'
        split at hm'
        · rename_i e; subst e
          rcases List.mem_cons.1 hm' with rfl | hm'
          · exact hf
          · exact ih _ _ hm'
        · exact ih _ _ hm'
    | upArrive s a b hab => exact ih
    | downArrive s a b hab => exact ih
    | route s wo so rnd p rest m out hr hdes hy hfit hout =>
      rcases act_sent hy with e | ⟨s', d, m', e1, e⟩
      · simp only [Sys.emptied, e]; exact ih
      · cases e1
    | deliver s p rest m hr hdes hy =>
      rcases act_sent hy with e | ⟨s', d, m', e1, e⟩
      · simp only [Sys.emptied, e]; exact ih
      · cases e1

/-- Args `a` and kwargs `kw` as read by `s` are args `a0` and kwargs `k0` as sent by `p`, value by value, after `p`'s serializer and then `s`'s. -/
def carriedOver (k : Nat → Kind) (p s : Nat) (a0 : GoSlice) (k0 : GoMap) (a : GoSlice) (kw : GoMap) : Prop :=
  a.getD [] = (a0.getD []).map (fun v => (k s).norm ((k p).norm v)) ∧ kw.getD [] = onDict (k s).norm (onDict (k p).norm (k0.getD []))

theorem onArgs_getD (norm : Val → Val) (a : GoSlice) (kw : GoMap) : (onArgs norm a kw).getD [] = (a.getD []).map norm := by
  cases a <;> cases kw <;> rfl

theorem onMap_getD (norm : Val → Val) (m : GoMap) : (onMap norm m).getD [] = onDict norm (m.getD []) := by
  cases m <;> rfl

theorem carried_over (p s : Nat) (a0 : GoSlice) (k0 : GoMap) :
    carriedOver k p s a0 k0 (onArgs (k s).norm (onArgs (k p).norm a0 k0) (onMap (k p).norm k0)) (onMap (k s).norm (onMap (k p).norm k0)) := by
  refine ⟨?_, ?_⟩
  · rw [onArgs_getD, onArgs_getD, List.map_map]; rfl
  · rw [onMap_getD, onMap_getD]

theorem mem_heard {n : Net} {p : Nat} {m : Msg} : m ∈ heard k n p ↔ ∃ m0 ∈ n.core.sent p, received (k p).norm m0 = m := by
  simp only [heard, List.mem_map, List.mem_reverse]

theorem traced_mem {n : Net} {s : Nat} {read : List Msg} (h : Traced w k n s read) {m : Msg} (hm : m ∈ read) :
    ∃ p m0 out, m0 ∈ n.core.sent p ∧ m = received (k s).norm out ∧ Caused w (heard k n) s p (received (k p).norm m0) out := by
  obtain ⟨src, h1, h2, h3⟩ := h
  rw [← h1] at hm
  obtain ⟨q, hq, rfl⟩ := List.mem_map.1 hm
  obtain ⟨out, e1, e2⟩ := h2 q hq
  have : q.2.1 ∈ heard k n q.1 := (h3 q.1).subset (List.mem_map_of_mem (List.mem_filter.2 ⟨hq, by simp⟩))
  obtain ⟨m0, g1, g2⟩ := mem_heard.1 this
  exact ⟨q.1, m0, out, g1, e1, by rwa [g2]⟩

/-- **C108** The args and kwargs of an EVENT are those of a PUBLISH that some client sent, for a topic the reader has sent a SUBSCRIBE for. -/
theorem C108_event {n : Net} (h : Run w k n) (hb : n.core.bh.length ≤ 2 ^ 53) (hd : n.core.dh.length ≤ 2 ^ 53) (s : Nat) {i pid : Nat} {d : GoMap}
    {a : GoSlice} {kw : GoMap} (hm : .event i pid d a kw ∈ n.got s) :
    ∃ p r o t a0 k0, .publish r o t a0 k0 ∈ n.core.sent p ∧ carriedOver k p s a0 k0 a kw ∧
      ∃ r' o' t', .subscribe r' o' t' ∈ n.core.sent s ∧ covers w t' t := by
  obtain ⟨p, m0, out, h1, h2, h3⟩ := traced_mem (C108_events h hb hd s) (List.mem_filter.2 ⟨hm, rfl⟩)
  cases out <;> simp only [received, reduceCtorEq] at h2
  cases h2
  obtain ⟨r, o, t, e, r', o', t', hs, hcov⟩ := h3
  cases m0 <;> simp only [received, reduceCtorEq] at e
  cases e
  obtain ⟨m1, hm1, e1⟩ := mem_heard.1 hs
  cases m1 <;> simp only [received, reduceCtorEq] at e1
  cases e1
  exact ⟨p, _, _, _, _, _, h1, carried_over p s _ _, _, _, _, hm1, hcov⟩

/-- **C108** The args and kwargs of an INVOCATION are those of a CALL that some client sent, for a procedure the reader has sent a REGISTER for. -/
theorem C108_invocation {n : Net} (h : Run w k n) (hb : n.core.bh.length ≤ 2 ^ 53) (hd : n.core.dh.length ≤ 2 ^ 53) (s : Nat) {i g : Nat} {d : GoMap}
    {a : GoSlice} {kw : GoMap} {b : Bin} (hm : .invocation i g d a kw b ∈ n.got s) :
    ∃ p r o t a0 k0, .call r o t a0 k0 Bin.none ∈ n.core.sent p ∧ carriedOver k p s a0 k0 a kw ∧ b = Bin.none ∧
      ∃ r' o' t', .register r' o' t' ∈ n.core.sent s ∧ covers w t' t := by
  obtain ⟨p, m0, out, h1, h2, h3⟩ := traced_mem (C108_answers h hb hd s) (List.mem_filter.2 ⟨hm, rfl⟩)
  cases out <;> simp only [received, reduceCtorEq] at h2
  cases h2
  obtain ⟨r, o, t, a0, k0, b0, e, hcon, r', o', t', hs, hcov⟩ := h3
  cases m0 <;> simp only [received, reduceCtorEq] at e
  cases e
  obtain ⟨m1, hm1, e1⟩ := mem_heard.1 hs
  cases m1 <;> simp only [received, reduceCtorEq] at e1
  cases e1
  have hbin := (sent_fit h p _ h1).1.2
  subst hbin
  rcases hcon with ⟨rfl, rfl, rfl⟩ | ⟨hc, -⟩
  · exact ⟨p, _, _, _, _, _, h1, carried_over p s _ _, rfl, _, _, _, hm1, hcov⟩
  · cases hc

/-- **C108** The args and kwargs of a RESULT are those of a YIELD that some client sent; and the reader has sent a CALL with its request ID. -/
theorem C108_result {n : Net} (h : Run w k n) (hb : n.core.bh.length ≤ 2 ^ 53) (hd : n.core.dh.length ≤ 2 ^ 53) (s : Nat) {r : Nat} {d : GoMap}
    {a : GoSlice} {kw : GoMap} {b : Bin} (hm : .result r d a kw b ∈ n.got s) :
    ∃ p i o a0 k0, .yield i o a0 k0 Bin.none ∈ n.core.sent p ∧ carriedOver k p s a0 k0 a kw ∧ b = Bin.none ∧
      ∃ o' t a' k', .call r o' t a' k' Bin.none ∈ n.core.sent s := by
  obtain ⟨p, m0, out, h1, h2, h3⟩ := traced_mem (C108_answers h hb hd s) (List.mem_filter.2 ⟨hm, rfl⟩)
  cases out <;> simp only [received, reduceCtorEq] at h2
  cases h2
  obtain ⟨⟨i, o, a0, k0, b0, e, hcon, -⟩, o', t, a', k', b', hs⟩ := h3
  cases m0 <;> simp only [received, reduceCtorEq] at e
  cases e
  obtain ⟨m1, hm1, e1⟩ := mem_heard.1 hs
  cases m1 <;> simp only [received, reduceCtorEq] at e1
  cases e1
  have hbin := (sent_fit h p _ h1).1.2
  subst hbin
  have hbin := (sent_fit h s _ hm1).1.2
  subst hbin
  rcases hcon with ⟨rfl, rfl, rfl⟩ | ⟨hc, -⟩
  · exact ⟨p, _, _, _, _, h1, carried_over p s _ _, rfl, _, _, _, _, hm1⟩
  · cases hc

/-! ### A run that meets the hypotheses -/

/-- Session 1 (CBOR) subscribes and calls, session 2 (MsgPack) publishes twice, registers and yields. -/
def tour : List Cmd :=
  [.join (Dealer.who 1), .join (Dealer.who 2)] ++ sends 1 (newSubscribe 1 none (str "t")) ++ [.down 1 100, .deliver 1] ++
  sends 2 (newPublish 7 none (str "t") (some [.int .int 300]) none) ++ sends 2 (newPublish 8 none (str "t") (some [.str (str "x")]) none) ++
  sends 2 (newRegister 1 none (str "p")) ++ [.down 2 100, .deliver 2] ++ [.down 1 3, .down 1 100, .deliver 1, .deliver 1] ++
  sends 1 (newCall 9 none (str "p") (some [.bool true]) none) ++ [.down 2 100, .deliver 2] ++
  sends 2 (newYield 2 none (some [.uint .u64 5]) none) ++ [.down 1 100, .deliver 1]

example : ((after tour).got 1).map glance = [(33, 1), (36, 2), (36, 3), (50, 9)] ∧ ((after tour).got 2).map glance = [(65, 1), (68, 2)] ∧
    (after tour).core.bh.length ≤ 2 ^ 53 ∧ (after tour).core.dh.length ≤ 2 ^ 53 := by decide +kernel

end Wamp.Net
