import Verif.Spec.Complete
import Verif.Props.Delivery
/-!
# C109, C110: subscribers miss nothing, registered procedures stay callable
-/
namespace Wamp.System
open Wamp.Session

variable {w : Str → Str → Bool}

/-! ### Who is attached -/

theorem broker_session_other {op : Broker.Op} {r : Res Broker.Out} (h1 : ∀ d, op ≠ .add d) (h2 : ∀ s o, op ≠ .remove s o) (h : List Broker.Event) (s : Nat) :
    Broker.session (⟨op, r⟩ :: h) s = Broker.session h s := by
  cases op <;> first | rfl | exact absurd rfl (h1 _) | exact absurd rfl (h2 _ _)

theorem dealer_session_other {op : Dealer.Op} {r : Res Dealer.Out} (h1 : ∀ d, op ≠ .add d) (h2 : ∀ s o, op ≠ .remove s o) (h : List Dealer.Event) (s : Nat) :
    Dealer.session (⟨op, r⟩ :: h) s = Dealer.session h s := by
  cases op <;> first | rfl | exact absurd rfl (h1 _) | exact absurd rfl (h2 _ _)

/-- Who is attached has joined; who has joined and was not removed is attached; who has sent something has joined. -/
structure AttInv (x : Sys) : Prop where
  bj : ∀ s, Broker.attached x.bh s → s ∈ x.joined
  dj : ∀ s, Dealer.attached x.dh s → s ∈ x.joined
  jb : ∀ s ∈ x.joined, Stays x s → Broker.attached x.bh s
  jd : ∀ s ∈ x.joined, Stays x s → Dealer.attached x.dh s
  sj : ∀ s, x.sent s ≠ [] → s ∈ x.joined

theorem AttInv.msg {x y : Sys} (h : AttInv x) (hj : y.joined = x.joined) (hs : y.sent = x.sent)
    (hb : y.bh = x.bh ∨ ∃ op r, y.bh = ⟨op, r⟩ :: x.bh ∧ (∀ d, op ≠ .add d) ∧ ∀ s o, op ≠ .remove s o)
    (hd : y.dh = x.dh ∨ ∃ op r, y.dh = ⟨op, r⟩ :: x.dh ∧ (∀ d, op ≠ .add d) ∧ ∀ s o, op ≠ .remove s o) : AttInv y := by
  have hb1 : ∀ s, Broker.session y.bh s = Broker.session x.bh s := by
    intro s
    rcases hb with e | ⟨op, r, e, h1, h2⟩ <;> rw [e]
    exact broker_session_other h1 h2 _ _
  have hd1 : ∀ s, Dealer.session y.dh s = Dealer.session x.dh s := by
    intro s
    rcases hd with e | ⟨op, r, e, h1, h2⟩ <;> rw [e]
    exact dealer_session_other h1 h2 _ _
  have hst : ∀ s, Stays y s → Stays x s := by
    rintro s ⟨h1, h2⟩
    refine ⟨fun e he => h1 e ?_, fun e he => h2 e ?_⟩
    · rcases hb with e | ⟨op, r, e, -⟩ <;> rw [e]
      · exact he
      · exact .tail _ he
    · rcases hd with e | ⟨op, r, e, -⟩ <;> rw [e]
      · exact he
      · exact .tail _ he
  refine ⟨fun s hs' => ?_, fun s hs' => ?_, fun s hs' hst' => ?_, fun s hs' hst' => ?_, fun s hs' => ?_⟩
  · rw [hj]; apply h.bj; unfold Broker.attached at hs' ⊢; rwa [← hb1]
  · rw [hj]; apply h.dj; unfold Dealer.attached at hs' ⊢; rwa [← hd1]
  · rw [hj] at hs'; have := h.jb s hs' (hst s hst'); unfold Broker.attached at this ⊢; rwa [hb1]
  · rw [hj] at hs'; have := h.jd s hs' (hst s hst'); unfold Dealer.attached at this ⊢; rwa [hd1]
  · rw [hj]; rw [hs] at hs'; exact h.sj s hs'

theorem callB_op {p : Nat} {m : Msg} {wo : List Str} {so : List Nat} {op : Broker.Op} (h : callB p m wo so = some op) :
    (∀ d, op ≠ .add d) ∧ ∀ s o, op ≠ .remove s o := by
  cases m <;> simp only [callB, reduceCtorEq, Option.some.injEq] at h <;> subst h <;> exact ⟨fun _ => nofun, fun _ _ => nofun⟩

theorem reach_att {x : Sys} (h : Reach w x) (hlen : x.bh.length ≤ 2 ^ 53) : AttInv x := by
  induction h with
  | new => refine ⟨?_, ?_, ?_, ?_, ?_⟩ <;> simp [Sys.new, Broker.attached, Dealer.attached, Broker.session, Dealer.session]
  | act a hx ha ih =>
    have hg := (change_grows (act_change ha)).1
    have ih := ih (Nat.le_trans hg hlen)
    have hH := reach_hist hx
    have hB := Broker.hist_inv hH.1 (Nat.le_trans hg hlen)
    have hD := Dealer.hist_sinv hH.2
    rename_i x y _
    cases a <;> simp only [Sys.act] at ha
    case join d =>
      split at ha
      · cases ha
      rename_i hj
      obtain ⟨h1, rfl⟩ := onDealer_some ha
      have nb : x.broker.bySession d.id = none := by
        cases hs : x.broker.bySession d.id with
        | none => rfl
        | some m =>
          have := hB.bys d.id
          rw [hs] at this
          exact absurd (ih.bj d.id this.symm) hj
      have nd : x.dealer.sessions d.id = none := by
        cases hs : x.dealer.sessions d.id with
        | none => rfl
        | some m =>
          have := hD.sess d.id
          rw [hs] at this
          exact absurd (ih.dj d.id (by rw [Dealer.attached, ← this]; rfl)) hj
      have eb : (Broker.step w x.broker (.add d)).2 = .ok .unit := by simp [Broker.step, Broker.addSession, nb, Res.map]
      have ed : (Dealer.step w x.dealer (.add d)).2 = .ok .unit := by simp [Dealer.step, Dealer.addSession, nd, Res.map]
      have hst : ∀ {s}, Stays { x with
          joined := d.id :: x.joined, bh := ⟨.add d, (Broker.step w x.broker (.add d)).2⟩ :: x.bh
          dh := ⟨.add d, (Dealer.step w x.dealer (.add d)).2⟩ :: x.dh } s → Stays x s :=
        fun h => ⟨fun e he => h.1 e (.tail _ he), fun e he => h.2 e (.tail _ he)⟩
      refine ⟨fun s hs => ?_, fun s hs => ?_, fun s hs hst' => ?_, fun s hs hst' => ?_, fun s hs => .tail _ (ih.sj s hs)⟩
      · simp only [Sys.onBroker, eb, Broker.attached, Broker.session] at hs
        split at hs
        · rename_i e; rw [← e]; exact .head _
        · exact .tail _ (ih.bj s hs)
      · simp only [Sys.onBroker, ed, Dealer.attached, Dealer.session] at hs
        split at hs
        · rename_i e; rw [← e]; exact .head _
        · exact .tail _ (ih.dj s hs)
      · simp only [Sys.onBroker, eb, Broker.attached, Broker.session]
        split
        · rfl
        · rename_i e
          rcases List.mem_cons.1 hs with rfl | hs
          · exact absurd rfl e
          · exact ih.jb s hs (hst hst')
      · simp only [Sys.onBroker, ed, Dealer.attached, Dealer.session]
        split
        · rfl
        · rename_i e
          rcases List.mem_cons.1 hs with rfl | hs
          · exact absurd rfl e
          · exact ih.jd s hs (hst hst')
    case leave s o o' =>
      obtain ⟨h1, rfl⟩ := onDealer_some ha
      have bs : ∀ s', Broker.session (⟨.remove s o, (Broker.step w x.broker (.remove s o)).2⟩ :: x.bh) s' = Broker.session x.bh s' ∨
          (s = s' ∧ Broker.session (⟨.remove s o, (Broker.step w x.broker (.remove s o)).2⟩ :: x.bh) s' = none) := by
        intro s'
        cases (Broker.step w x.broker (.remove s o)).2 with
        | err => exact .inl rfl
        | panic => exact .inl rfl
        | ok v =>
          simp only [Broker.session]
          split
          · rename_i e; exact .inr ⟨e, rfl⟩
          · exact .inl rfl
      have ds : ∀ s', Dealer.session (⟨.remove s o', (Dealer.step w x.dealer (.remove s o')).2⟩ :: x.dh) s' = Dealer.session x.dh s' ∨
          (s = s' ∧ Dealer.session (⟨.remove s o', (Dealer.step w x.dealer (.remove s o')).2⟩ :: x.dh) s' = none) := by
        intro s'
        cases (Dealer.step w x.dealer (.remove s o')).2 with
        | err => exact .inl rfl
        | panic => exact .inl rfl
        | ok v =>
          simp only [Dealer.session]
          split
          · rename_i e; exact .inr ⟨e, rfl⟩
          · exact .inl rfl
      refine ⟨fun s' hs => ?_, fun s' hs => ?_, fun s' hs hst' => ?_, fun s' hs hst' => ?_, fun s' hs => ih.sj s' hs⟩
      · rcases bs s' with e | ⟨-, e⟩
        · exact ih.bj s' (by simpa only [Broker.attached, Sys.onBroker, e] using hs)
        · simp [Broker.attached, Sys.onBroker, e] at hs
      · rcases ds s' with e | ⟨-, e⟩
        · exact ih.dj s' (by simpa only [Dealer.attached, Sys.onBroker, e] using hs)
        · simp [Dealer.attached, Sys.onBroker, e] at hs
      · rcases bs s' with e | ⟨rfl, -⟩
        · have := ih.jb s' hs ⟨fun e he => hst'.1 e (.tail _ he), fun e he => hst'.2 e (.tail _ he)⟩
          simpa only [Broker.attached, Sys.onBroker, e] using this
        · exact absurd rfl (hst'.1 _ (.head _) o)
      · rcases ds s' with e | ⟨rfl, -⟩
        · have := ih.jd s' hs ⟨fun e he => hst'.1 e (.tail _ he), fun e he => hst'.2 e (.tail _ he)⟩
          simpa only [Dealer.attached, Sys.onBroker, e] using this
        · exact absurd rfl (hst'.2 _ (.head _) o')
    case disclose p c =>
      obtain ⟨h1, rfl⟩ := onDealer_some ha
      exact ih.msg rfl rfl (.inr ⟨_, _, rfl, fun _ => nofun, fun _ _ => nofun⟩) (.inr ⟨_, _, rfl, fun _ => nofun, fun _ _ => nofun⟩)
    case send s data m =>
      split at ha
      · split at ha
        · rename_i hj
          cases ha
          refine ⟨ih.bj, ih.dj, ih.jb, ih.jd, fun s' hs => ?_⟩
          by_cases e : s' = s
          · rw [e]; exact hj
          · exact ih.sj s' (by simpa [upd, e] using hs)
        · cases ha
      · cases ha
    case deliver s =>
      split at ha
      · cases ha
      · cases ha; exact ⟨ih.bj, ih.dj, ih.jb, ih.jd, ih.sj⟩
    case route s wo so rnd =>
      split at ha
      · cases ha
      · rename_i m rest hu
        have key : forDealer m → ((({ x with up := upd x.up s rest } : Sys).onDealer w (.receive s m wo rnd)).map fun y =>
            y.post (dealerOut (Dealer.step w x.dealer (.receive s m wo rnd)).2)) = some y → AttInv y := by
          intro hm h
          obtain ⟨z, hz, rfl⟩ := Option.map_eq_some_iff.1 h
          obtain ⟨h1, rfl⟩ := onDealer_some hz
          exact ih.msg rfl rfl (.inl rfl) (.inr ⟨_, _, rfl, fun _ => nofun, fun _ _ => nofun⟩)
        cases m <;> simp only [Sys.handle] at ha
        all_goals first
          | exact key trivial ha
          | (cases ha; exact ih.msg rfl rfl (.inr ⟨_, _, rfl, fun _ => nofun, fun _ _ => nofun⟩) (.inl rfl))
          | (cases ha; exact ih.msg rfl rfl (.inl rfl) (.inl rfl))

/-! ### One step of the log -/

/-- What an action does to the log. -/
inductive LStep (w : Str → Str → Bool) (l : Log) (a : Action) : Log → Prop where
  | admin (bop dop j) : adminB bop → adminD dop → (Dealer.step w l.sys.dealer dop).2 ≠ .panic → LStep w l a ⟨{ l.sys with
      broker := (Broker.step w l.sys.broker bop).1, bh := ⟨bop, (Broker.step w l.sys.broker bop).2⟩ :: l.sys.bh,
      dealer := (Dealer.step w l.sys.dealer dop).1, dh := ⟨dop, (Dealer.step w l.sys.dealer dop).2⟩ :: l.sys.dh, joined := j }, l.got⟩
  | send (s data m c) : a = .send s data m → LStep w l a ⟨{ l.sys with
      client := upd l.sys.client s c, up := upd l.sys.up s (l.sys.up s ++ [m]), sent := upd l.sys.sent s (m :: l.sys.sent s) }, l.got⟩
  | deliver (s m rest c) : l.sys.down s = m :: rest → LStep w l a ⟨{ l.sys with
      client := upd l.sys.client s c, down := upd l.sys.down s rest }, upd l.got s (l.got s ++ [m])⟩
  | broker (s m rest wo so op) : l.sys.up s = m :: rest → callB s m wo so = some op → LStep w l a ⟨{ l.sys with
      broker := (Broker.step w l.sys.broker op).1, bh := ⟨op, (Broker.step w l.sys.broker op).2⟩ :: l.sys.bh, up := upd l.sys.up s rest,
      down := fun s' => l.sys.down s' ++ messagesFor s' (brokerOut (Broker.step w l.sys.broker op).2) }, l.got⟩
  | dealer (s m rest wo rnd) : l.sys.up s = m :: rest → forDealer m → (Dealer.step w l.sys.dealer (.receive s m wo rnd)).2 ≠ .panic →
      LStep w l a ⟨{ l.sys with
        dealer := (Dealer.step w l.sys.dealer (.receive s m wo rnd)).1,
        dh := ⟨.receive s m wo rnd, (Dealer.step w l.sys.dealer (.receive s m wo rnd)).2⟩ :: l.sys.dh, up := upd l.sys.up s rest,
        down := fun s' => l.sys.down s' ++ messagesFor s' (dealerOut (Dealer.step w l.sys.dealer (.receive s m wo rnd)).2) }, l.got⟩
  | ignore (s m rest) : l.sys.up s = m :: rest → callB s m [] [] = none → ¬forDealer m → LStep w l a ⟨{ l.sys with up := upd l.sys.up s rest }, l.got⟩

theorem log_step {l l' : Log} {a : Action} (h0 : l.act w a = some l') : LStep w l a l' := by
  obtain ⟨x, got⟩ := l
  obtain ⟨y, h, e⟩ := Option.map_eq_some_iff.1 h0
  clear h0
  subst e
  cases a <;> simp only [Sys.act] at h
  case join d =>
    split at h
    · cases h
    · obtain ⟨h1, rfl⟩ := onDealer_some h
      exact .admin (.add d) (.add d) _ trivial trivial h1
  case leave s o o' =>
    obtain ⟨h1, rfl⟩ := onDealer_some h
    exact .admin (.remove s o) (.remove s o') _ trivial trivial h1
  case disclose p c =>
    obtain ⟨h1, rfl⟩ := onDealer_some h
    exact .admin (.disclose p) (.disclose c) _ trivial trivial h1
  case send s data m =>
    split at h
    · rename_i c b hr
      split at h
      · cases h
        exact .send s data m c rfl
      · cases h
    · cases h
  case deliver s =>
    split at h
    · cases h
    · rename_i m rest hd
      cases h
      simp only [hd, List.take_succ_cons, List.take_zero]
      exact .deliver s m rest _ hd
  case route s wo so rnd =>
    split at h
    · cases h
    · rename_i m rest hu
      have key : forDealer m → ((({ x with up := upd x.up s rest } : Sys).onDealer w (.receive s m wo rnd)).map fun y =>
          y.post (dealerOut (Dealer.step w x.dealer (.receive s m wo rnd)).2)) = some y → LStep w ⟨x, got⟩ (.route s wo so rnd) ⟨y, got⟩ := by
        intro hm h
        obtain ⟨z, hz, rfl⟩ := Option.map_eq_some_iff.1 h
        obtain ⟨h1, rfl⟩ := onDealer_some hz
        exact .dealer s m rest wo rnd hu hm h1
      cases m <;> simp only [Sys.handle] at h
      case publish q o t a k =>
        cases h
        exact .broker s _ rest wo so (.publish s q o t a k wo so) hu rfl
      case subscribe q o t =>
        cases h
        exact .broker s _ rest wo so (.receive s (.subscribe q o t)) hu rfl
      case unsubscribe q g =>
        cases h
        exact .broker s _ rest wo so (.receive s (.unsubscribe q g)) hu rfl
      all_goals first | exact key trivial h | (cases h; exact .ignore s _ rest hu rfl (fun h => h))

theorem mem_messagesFor {s : Nat} {m : Msg} {out : List (Nat × Msg)} : m ∈ messagesFor s out ↔ (s, m) ∈ out := by
  simp only [messagesFor, List.mem_map, List.mem_filter, decide_eq_true_eq]
  constructor
  · rintro ⟨⟨a, b⟩, ⟨h, rfl⟩, rfl⟩; exact h
  · exact fun h => ⟨_, ⟨h, rfl⟩, rfl⟩

theorem admin_outB (b : Broker.State) {op : Broker.Op} (h : adminB op) : brokerOut (Broker.step w b op).2 = [] := by
  cases op <;> simp only [adminB] at h <;> simp only [Broker.step]
  · cases (Broker.addSession b _).2 <;> rfl
  · cases (Broker.removeSession b _ _).2 <;> rfl
  · rfl

theorem admin_outD (b : Dealer.State) {op : Dealer.Op} (h : adminD op) : dealerOut (Dealer.step w b op).2 = [] := by
  cases op <;> simp only [adminD] at h <;> simp only [Dealer.step]
  · cases (Dealer.addSession b _).2 <;> rfl
  · cases (Dealer.removeSession b _ _).2 <;> rfl
  · rfl

theorem log_act_sys {l l' : Log} {a : Action} (h : l.act w a = some l') : l.sys.act w a = some l'.sys := by
  obtain ⟨y, h1, h2⟩ := Option.map_eq_some_iff.1 h
  subst h2
  exact h1

theorem log_change {l l' : Log} {a : Action} (h : l.act w a = some l') : Change w l.sys l'.sys := act_change (log_act_sys h)

theorem change_hist {x y : Sys} (h : Change w x y) : x.bh <:+ y.bh ∧ x.dh <:+ y.dh := by
  cases h <;> simp

theorem Stays.back {x y : Sys} (h : Change w x y) {s : Nat} (hs : Stays y s) : Stays x s :=
  ⟨fun e he => hs.1 e ((change_hist h).1.subset he), fun e he => hs.2 e ((change_hist h).2.subset he)⟩

/-- Inboxes hold what broker and dealer sent out, and nothing else; and they only grow. -/
structure OutInv (l : Log) : Prop where
  bout : ∀ e ∈ l.sys.bh, ∀ s m, (s, m) ∈ brokerOut e.res → m ∈ l.inbox s
  dout : ∀ e ∈ l.sys.dh, ∀ s m, (s, m) ∈ dealerOut e.res → m ∈ l.inbox s
  src : ∀ s, ∀ m ∈ l.inbox s, (∃ e ∈ l.sys.bh, (s, m) ∈ brokerOut e.res) ∨ ∃ e ∈ l.sys.dh, (s, m) ∈ dealerOut e.res

theorem inbox_step {l l' : Log} {a : Action} (h : l.act w a = some l') : ∀ s, l.inbox s <+: l'.inbox s := by
  intro s
  cases log_step h with
  | admin bop dop j h1 h2 h3 => exact List.prefix_refl _
  | send p data m c h1 => exact List.prefix_refl _
  | ignore p m rest h1 h2 h3 => exact List.prefix_refl _
  | broker p m rest wo so op h1 h2 => exact ⟨_, List.append_assoc ..⟩
  | dealer p m rest wo rnd h1 h2 h3 => exact ⟨_, List.append_assoc ..⟩
  | deliver p m rest c h1 =>
    have : l.inbox s = Log.inbox ⟨{ l.sys with client := upd l.sys.client p c, down := upd l.sys.down p rest }, upd l.got p (l.got p ++ [m])⟩ s := by
      simp only [Log.inbox, upd]
      split
      · rename_i e; subst e; rw [h1]; simp
      · rfl
    exact this ▸ List.prefix_refl _

theorem inbox_deliver {l : Log} {p : Nat} {m : Msg} {rest : List Msg} (c : Session.State) (h1 : l.sys.down p = m :: rest) (s : Nat) :
    Log.inbox ⟨{ l.sys with client := upd l.sys.client p c, down := upd l.sys.down p rest }, upd l.got p (l.got p ++ [m])⟩ s = l.inbox s := by
  simp only [Log.inbox, upd]
  split
  · rename_i e; subst e; rw [h1]; simp
  · rfl

theorem out_new : OutInv Log.new := ⟨by simp [Log.new, Sys.new], by simp [Log.new, Sys.new], by simp [Log.new, Sys.new, Log.inbox]⟩

theorem OutInv.act {l l' : Log} {a : Action} (ih : OutInv l) (ha : l.act w a = some l') : OutInv l' := by
  have hp := inbox_step ha
  obtain ⟨i1, i2, i3⟩ := ih
  cases log_step ha with
  | admin bop dop j h1 h2 h3 =>
    refine ⟨fun e he s m hm => ?_, fun e he s m hm => ?_, fun s m hm => ?_⟩
    · rcases List.mem_cons.1 he with rfl | he
      · simp only [admin_outB _ h1] at hm; cases hm
      · exact i1 e he s m hm
    · rcases List.mem_cons.1 he with rfl | he
      · simp only [admin_outD _ h2] at hm; cases hm
      · exact i2 e he s m hm
    · rcases i3 s m hm with ⟨e, he, hq⟩ | ⟨e, he, hq⟩
      · exact .inl ⟨e, .tail _ he, hq⟩
      · exact .inr ⟨e, .tail _ he, hq⟩
  | send p data m c h1 => exact ⟨i1, i2, i3⟩
  | ignore p m rest h1 h2 h3 => exact ⟨i1, i2, i3⟩
  | deliver p m rest c h1 =>
    refine ⟨fun e he s m hm => ?_, fun e he s m hm => ?_, fun s m hm => ?_⟩
    · rw [inbox_deliver c h1]; exact i1 e he s m hm
    · rw [inbox_deliver c h1]; exact i2 e he s m hm
    · rw [inbox_deliver c h1] at hm; exact i3 s m hm
  | broker p m rest wo so op h1 h2 =>
    refine ⟨fun e he s m hm => ?_, fun e he s m hm => (hp s).subset (i2 e he s m hm), fun s m hm => ?_⟩
    · rcases List.mem_cons.1 he with rfl | he
      · exact List.mem_append.2 (.inr (List.mem_append.2 (.inr (mem_messagesFor.2 hm))))
      · exact (hp s).subset (i1 e he s m hm)
    · simp only [Log.inbox] at hm
      rw [← List.append_assoc] at hm
      rcases List.mem_append.1 hm with hm | hm
      · rcases i3 s m hm with ⟨e, he, hq⟩ | ⟨e, he, hq⟩
        · exact .inl ⟨e, .tail _ he, hq⟩
        · exact .inr ⟨e, he, hq⟩
      · exact .inl ⟨_, .head _, mem_messagesFor.1 hm⟩
  | dealer p m rest wo rnd h1 h2 h3 =>
    refine ⟨fun e he s m hm => (hp s).subset (i1 e he s m hm), fun e he s m hm => ?_, fun s m hm => ?_⟩
    · rcases List.mem_cons.1 he with rfl | he
      · exact List.mem_append.2 (.inr (List.mem_append.2 (.inr (mem_messagesFor.2 hm))))
      · exact (hp s).subset (i2 e he s m hm)
    · simp only [Log.inbox] at hm
      rw [← List.append_assoc] at hm
      rcases List.mem_append.1 hm with hm | hm
      · rcases i3 s m hm with ⟨e, he, hq⟩ | ⟨e, he, hq⟩
        · exact .inl ⟨e, he, hq⟩
        · exact .inr ⟨e, .tail _ he, hq⟩
      · exact .inr ⟨_, .head _, mem_messagesFor.1 hm⟩

theorem log_out {l : Log} (h : Log.Reach w l) : OutInv l := by
  induction h with
  | new => exact out_new
  | act a hl ha ih => exact ih.act ha

/-! ### What broker and dealer answer with -/

theorem hist_eventB {h : List Broker.Event} {b : Broker.State} (hh : Broker.Hist w h b) (hlen : h.length ≤ 2 ^ 53) {e : Broker.Event} (he : e ∈ h) :
    ∃ h' b', Broker.Hist w h' b' ∧ h'.length < 2 ^ 53 ∧ e = ⟨e.op, (Broker.step w b' e.op).2⟩ := by
  induction hh with
  | new => cases he
  | @step h b op hh ih =>
    simp only [List.length_cons] at hlen
    rcases List.mem_cons.1 he with rfl | he
    · exact ⟨_, _, hh, by omega, rfl⟩
    · exact ih (by omega) he

theorem hist_eventD {h : List Dealer.Event} {b : Dealer.State} (hh : Dealer.Hist w h b) {e : Dealer.Event} (he : e ∈ h) :
    ∃ h' b', Dealer.Hist w h' b' ∧ (h.length ≤ 2 ^ 53 → h'.length < 2 ^ 53) ∧ (Dealer.step w b' e.op).2 ≠ .panic ∧
      e = ⟨e.op, (Dealer.step w b' e.op).2⟩ := by
  induction hh with
  | new => cases he
  | @step h b op hh hnp ih =>
    rcases List.mem_cons.1 he with rfl | he
    · exact ⟨_, _, hh, by simp only [List.length_cons]; omega, hnp, rfl⟩
    · obtain ⟨h', b', h1, h2, h3⟩ := ih he
      exact ⟨h', b', h1, fun h => h2 (by simp only [List.length_cons] at h; omega), h3⟩

theorem dealer_from (b : Dealer.State) (op : Dealer.Op) {s : Nat} {m : Msg} (h : (s, m) ∈ dealerOut (Dealer.step w b op).2) : fromDealer m := by
  cases op with
  | add d => rw [admin_outD (op := .add d) _ trivial] at h; cases h
  | remove s o => rw [admin_outD (op := .remove s o) _ trivial] at h; cases h
  | disclose on => rw [admin_outD (op := .disclose on) _ trivial] at h; cases h
  | has t => cases h
  | receive p m wo rnd => exact dealerOut_from b p m wo rnd _ h

theorem dealer_msg {e : Dealer.Event} {s : Nat} {m : Msg} (h : (s, m) ∈ dealerOut e.res) : e.res = .ok (.msg m s) := by
  obtain ⟨op, res⟩ := e
  simp only [dealerOut] at h ⊢
  split at h
  · simp only [List.mem_singleton, Prod.mk.injEq] at h
    obtain ⟨rfl, rfl⟩ := h
    rfl
  · cases h

theorem fromDealerB {m : Msg} (h1 : fromBroker m) (h2 : fromDealer m) : False := by
  cases m <;> simp_all [fromBroker, fromDealer]

/-- A SUBSCRIBED in an inbox answers a SUBSCRIBE the broker was given. -/
theorem subscribed_event {l : Log} (h : Log.Reach w l) (hlen : l.sys.bh.length ≤ 2 ^ 53) {s r i : Nat} (hi : .subscribed r i ∈ l.inbox s) :
    ∃ o t, (⟨.receive s (.subscribe r o t), .ok (.msg (.subscribed r i) s)⟩ : Broker.Event) ∈ l.sys.bh := by
  rcases (log_out h).src s _ hi with ⟨e, he, hq⟩ | ⟨e, he, hq⟩
  · obtain ⟨h', b', hh, hl, ee⟩ := hist_eventB (reach_hist (log_sys h)).1 hlen he
    obtain ⟨op, res⟩ := e
    simp only [Broker.Event.mk.injEq, true_and] at ee
    subst ee
    simp only at hq
    cases op with
    | add d => rw [admin_outB (op := .add d) _ trivial] at hq; cases hq
    | remove s o => rw [admin_outB (op := .remove s o) _ trivial] at hq; cases hq
    | disclose on => rw [admin_outB (op := .disclose on) _ trivial] at hq; cases hq
    | has t => cases hq
    | publish p q o u a k wo so =>
      rcases Broker.publish_result hh hl p q o u a k wo so with ⟨-, e, -⟩ | ⟨-, pub, hpub, n, -, -, hack, hev⟩
      · simp [Broker.step, e, brokerOut] at hq
      · simp only [Broker.step, hpub, Res.map_ok, brokerOut, List.mem_append] at hq
        rcases hq with hq | hq
        · rcases hev with ⟨e1, -, -⟩ | ⟨t, i, -, e1, -⟩ <;> rw [e1] at hq <;> simp at hq
        · rw [hack] at hq
          by_cases hf : o.flag (str "acknowledge") = true
          · rw [if_pos hf] at hq; simp at hq
          · rw [if_neg hf] at hq; simp at hq
    | receive p m =>
      cases m
      case subscribe q o t =>
        rcases subscribed_of (w := w) (b := b') (s := p) (q := q) (o := o) (t := t) with e | ⟨j, e⟩
        · rw [e] at hq; cases hq
        · rw [e] at hq
          simp only [brokerOut, List.mem_singleton, Prod.mk.injEq, Msg.subscribed.injEq] at hq
          obtain ⟨rfl, rfl, rfl⟩ := hq
          exact ⟨o, t, by rw [← e]; exact he⟩
      case unsubscribe q g =>
        have : (Broker.step w b' (.receive p (.unsubscribe q g))).2 = .err ∨
            (Broker.step w b' (.receive p (.unsubscribe q g))).2 = .panic ∨
            (Broker.step w b' (.receive p (.unsubscribe q g))).2 = .ok (.msg (.unsubscribed q) p) := by
          simp only [Broker.step, Broker.receive, Broker.unsubscribe]
          repeat' (first | exact .inl rfl | exact .inr (.inl rfl) | exact .inr (.inr rfl) | split)
        rcases this with e | e | e <;> rw [e] at hq <;> simp [brokerOut] at hq
      all_goals simp [Broker.step, Broker.receive, brokerOut] at hq
  · obtain ⟨h', b', -, -, -, ee⟩ := hist_eventD (reach_hist (log_sys h)).2 he
    rw [ee] at hq
    exact (fromDealerB (m := .subscribed r i) trivial (dealer_from _ _ hq)).elim

theorem current_same {e : Broker.Event} {h : List Broker.Event} {s i : Nat} {t : Str} (hc : Broker.current h s t = some i)
    (h1 : ∀ j, Broker.subscribedAs s t j e → j = i) (h2 : ∀ q, e.op ≠ .receive s (.unsubscribe q i)) (h3 : ∀ o, e.op ≠ .remove s o) :
    Broker.current (e :: h) s t = some i := by
  unfold Broker.current
  split
  · cases ‹_ :: _ = [] ›
  · rename_i heq
    injection heq with h4 h5
    subst h4 h5
    split
    · rename_i hst
      obtain ⟨rfl, rfl⟩ := hst
      rw [h1 _ ⟨_, _, _, _, rfl⟩]
    · exact hc
  · rename_i heq
    injection heq with h4 h5
    subst h4 h5
    split
    · rename_i hst
      obtain ⟨rfl, hst⟩ := hst
      rw [hc] at hst
      cases hst
      exact absurd rfl (h2 _)
    · exact hc
  · rename_i heq
    injection heq with h4 h5
    subst h4 h5
    split
    · rename_i hst
      subst hst
      exact absurd rfl (h3 _)
    · exact hc
  · rename_i heq
    injection heq with h4 h5
    subst h5
    exact hc

/-- A subscription lasts until it is given up. -/
theorem current_kept {h : List Broker.Event} {b : Broker.State} (hh : Broker.Hist w h b) (hlen : h.length ≤ 2 ^ 53) {s i : Nat} {t : Str}
    {e : Broker.Event} (he : e ∈ h) (hsub : Broker.subscribedAs s t i e) (hu : ∀ e ∈ h, ∀ q, e.op ≠ .receive s (.unsubscribe q i))
    (hr : ∀ e ∈ h, ∀ o, e.op ≠ .remove s o) : Broker.current h s t = some i := by
  induction hh with
  | new => cases he
  | @step h b op hh ih =>
    simp only [List.length_cons] at hlen
    have hi := Broker.hist_inv hh (Nat.le_of_lt hlen)
    rcases List.mem_cons.1 he with he | he
    · subst he
      obtain ⟨q, o, q', s', e⟩ := hsub
      rw [e]
      simp [Broker.current]
    · refine current_same (ih (by omega) he (fun e he => hu e (.tail _ he)) (fun e he => hr e (.tail _ he))) ?_ (hu _ (.head _)) (hr _ (.head _))
      have ih := ih (by omega) he (fun e he => hu e (.tail _ he)) (fun e he => hr e (.tail _ he))
      rintro j ⟨q, o, q', s', e⟩
      injection e with h5 h6
      subst h5
      have hat : Broker.attached h s := by
        unfold Broker.attached
        rw [← hi.bys]
        simp only [Broker.step, Broker.receive, Broker.subscribe] at h6
        split at h6
        · cases h6
        · rename_i hb; rw [hb]; rfl
      obtain ⟨j', h7, h8⟩ := Broker.subscribe_result (w := w) hi s q o t hat
      rw [h7] at h6
      cases h6
      exact h8 _ _ ih

/-! ### C109 -/

/-- What the router takes from `p`'s link when it routes. -/
theorem route_publish {l l' : Log} {p q : Nat} {po : GoMap} {t : Str} {a : GoSlice} {k : GoMap} {rest : List Msg} {wo : List Str} {so : List Nat} {rnd : Nat}
    (hup : l.sys.up p = .publish q po t a k :: rest) (ha : l.act w (.route p wo so rnd) = some l') :
    (∀ s, l'.inbox s = l.inbox s ++ messagesFor s (brokerOut (Broker.step w l.sys.broker (.publish p q po t a k wo so)).2)) ∧
      l'.sys.bh.length = l.sys.bh.length + 1 := by
  obtain ⟨y, h1, h2⟩ := Option.map_eq_some_iff.1 ha
  subst h2
  simp only [Sys.act, hup, Sys.handle, Option.some.injEq] at h1
  subst h1
  refine ⟨fun s => ?_, rfl⟩
  simp only [Log.inbox, Sys.post, Sys.onBroker, List.append_assoc]

/-- **C109** A client that got SUBSCRIBED for its SUBSCRIBE to `t`, and has sent no UNSUBSCRIBE for that subscription, gets an EVENT for
every PUBLISH to `t` that the router takes, with its args and kwargs: exactly one (and its own PUBLISHED, if it is the publisher and
asked for it). -/
theorem C109_no_event_missed {l l' : Log} (h : Log.Reach w l) (hb : l.sys.bh.length < 2 ^ 53) (s r i : Nat) (t : Str)
    (hsub : .subscribed r i ∈ l.inbox s) (hr : ∀ o t', .subscribe r o t' ∈ l.sys.sent s → t' = t) (hu : ∀ q, .unsubscribe q i ∉ l.sys.sent s)
    (hs : Stays l.sys s) (p q : Nat) (hp : Stays l.sys p) (po : GoMap) (a : GoSlice) (k : GoMap) (rest : List Msg) (wo : List Str) (so : List Nat) (rnd : Nat)
    (hup : l.sys.up p = .publish q po t a k :: rest) (ha : l.act w (.route p wo so rnd) = some l') :
    ∃ n d, l'.inbox s = l.inbox s ++ .event i n d a k :: if p = s ∧ po.flag (str "acknowledge") = true then [.published q n] else [] := by
  have hx := log_sys h
  have hh := (reach_hist hx).1
  have hS := reach_sent hx
  have hA := reach_att hx (Nat.le_of_lt hb)
  obtain ⟨o, t', he⟩ := subscribed_event h (Nat.le_of_lt hb) hsub
  have ht : t' = t := hr o t' (hS.bh _ he _ _ rfl)
  subst ht
  have hc : Broker.current l.sys.bh s t' = some i :=
    current_kept hh (Nat.le_of_lt hb) he ⟨r, o, r, s, rfl⟩ (fun e he q hop => hu q (hS.bh e he _ _ hop)) hs.1
  have hpa : Broker.attached l.sys.bh p :=
    hA.jb p (hA.sj p (List.ne_nil_of_mem (hS.up p _ (by rw [hup]; exact .head _)))) hp
  rw [(route_publish hup ha).1]
  rcases Broker.publish_result hh hb p q po t' a k wo so with ⟨hn, -⟩ | ⟨-, pub, hpub, n, -, -, hack, hev⟩
  · exact absurd hpa hn
  · rcases hev with ⟨-, -, hno⟩ | ⟨u, j, hsel, e1, hnd, -, hmem, hall⟩
    · exact absurd (.inl ⟨⟨s, i, hc⟩, rfl⟩) (hno t')
    · have hu' : u = t' := by
        rcases hsel with ⟨-, h⟩ | ⟨h, -⟩ | ⟨h, -⟩
        · exact h
        · exact absurd ⟨s, i, hc⟩ h
        · exact absurd ⟨s, i, hc⟩ h
      subst hu'
      have hij := hall s i hc
      subst hij
      refine ⟨n, some (Broker.detailsSpec l.sys.bh p u), congrArg (l.inbox s ++ ·) ?_⟩
      simp only [Broker.step, hpub, Res.map_ok, brokerOut, messagesFor_append, e1, hack]
      rw [messagesFor_in _ hnd ((hmem s).2 hc)]
      rw [List.singleton_append]
      refine congrArg (Msg.event i n (some (Broker.detailsSpec l.sys.bh p u)) a k :: ·) ?_
      by_cases hf : po.flag (str "acknowledge") = true
      · rw [if_pos hf]
        simp only [messagesFor_one, hf, and_true]
      · simp [hf, messagesFor]

theorem run_grows {l l' : Log} (as : List Action) (h : l.run w as = some l') :
    l.sys.bh <:+ l'.sys.bh ∧ l.sys.dh <:+ l'.sys.dh ∧ (∀ s, l.sys.sent s <:+ l'.sys.sent s) ∧ ∀ s, l.inbox s <+: l'.inbox s := by
  induction as generalizing l with
  | nil => cases h; exact ⟨List.suffix_refl _, List.suffix_refl _, fun _ => List.suffix_refl _, fun _ => List.prefix_refl _⟩
  | cons a as ih =>
    obtain ⟨z, h1, h2⟩ := Option.bind_eq_some_iff.1 h
    obtain ⟨i1, i2, i3, i4⟩ := ih h2
    have hc := log_change h1
    obtain ⟨c1, c2⟩ := change_hist hc
    exact ⟨c1.trans i1, c2.trans i2, fun s => ((change_grows hc).2.2 s).trans (i3 s), fun s => (inbox_step h1 s).trans (i4 s)⟩

/-- **C109** So whatever happens from then on, the EVENTs it gets for its subscription include one for every PUBLISH to `t` that the router
takes, in the order in which it takes them. -/
theorem C109_every_event {l l' : Log} (h : Log.Reach w l) (as : List Action) (ha : l.run w as = some l') (hb : l'.sys.bh.length ≤ 2 ^ 53)
    (s r i : Nat) (t : Str) (hsub : .subscribed r i ∈ l.inbox s) (hr : ∀ o t', .subscribe r o t' ∈ l'.sys.sent s → t' = t)
    (hu : ∀ q, .unsubscribe q i ∉ l'.sys.sent s) (hs : Stays l'.sys s)
    (hp : ∀ q ∈ l.taken w as, publishedTo t q.2 ≠ none → Stays l'.sys q.1) :
    ∃ new, l'.inbox s = l.inbox s ++ new ∧ ((l.taken w as).filterMap fun q => publishedTo t q.2).Sublist (new.filterMap (eventFor i)) := by
  induction as generalizing l with
  | nil => cases ha; exact ⟨[], by simp, .refl _⟩
  | cons a as ih =>
    obtain ⟨z, h1, h2⟩ := Option.bind_eq_some_iff.1 ha
    simp only [Log.taken, h1] at hp ⊢
    obtain ⟨g1, g2, g3, g4⟩ := run_grows as h2
    obtain ⟨new, e1, e2⟩ := ih (h.act a h1) h2 ((inbox_step h1 s).subset hsub) (fun q hq => hp q (List.mem_append.2 (.inr hq)))
    obtain ⟨c1, c2⟩ := change_hist (log_change h1)
    have c3 := (change_grows (log_change h1)).2.2
    have hz : ∀ {p}, Stays l'.sys p → Stays l.sys p := fun h =>
      ⟨fun e he => h.1 e (g1.subset (c1.subset he)), fun e he => h.2 e (g2.subset (c2.subset he))⟩
    have other : ∀ {pre : List (Nat × Msg)}, pre.filterMap (fun q => publishedTo t q.2) = [] →
        ∃ new, l'.inbox s = l.inbox s ++ new ∧ ((pre ++ z.taken w as).filterMap fun q => publishedTo t q.2).Sublist (new.filterMap (eventFor i)) := by
      intro pre hpre
      obtain ⟨m, hm⟩ := inbox_step h1 s
      refine ⟨m ++ new, by rw [e1, ← hm, List.append_assoc], ?_⟩
      rw [List.filterMap_append, hpre, List.nil_append, List.filterMap_append]
      exact e2.trans (List.sublist_append_right _ _)
    cases a with
    | route p wo so rnd =>
      simp only at hp ⊢
      cases hup : l.sys.up p with
      | nil => rw [hup] at hp; exact other rfl
      | cons m rest =>
        rw [hup] at hp
        simp only [List.take_succ_cons, List.take_zero, List.map_cons, List.map_nil] at hp ⊢
        cases hm : publishedTo t m with
        | none => exact other (by simp [hm])
        | some c =>
          cases m <;> simp only [publishedTo, reduceCtorEq] at hm
          rename_i q po u a k
          split at hm
          · rename_i hut
            subst hut
            cases hm
            have hlen : l.sys.bh.length < 2 ^ 53 := by
              have hg := g1.length_le
              rw [(route_publish hup h1).2] at hg
              omega
            have hst := hp (p, .publish q po u a k) (.head _) (by simp [publishedTo])
            obtain ⟨n, d, e3⟩ := C109_no_event_missed h hlen s r i u hsub (fun o t' hm => hr o t' ((g3 s).subset ((c3 s).subset hm)))
              (fun q hm => hu q ((g3 s).subset ((c3 s).subset hm))) (hz hs) p q (hz hst) po a k rest wo so rnd hup h1
            refine ⟨(.event i n d a k :: if p = s ∧ po.flag (str "acknowledge") = true then [.published q n] else []) ++ new, ?_, ?_⟩
            · rw [e1, e3, List.append_assoc]
            · rw [List.filterMap_append, List.filterMap_append]
              refine List.Sublist.append ?_ e2
              simp [publishedTo, eventFor]
          · cases hm
    | join d => exact other rfl
    | leave s o o' => exact other rfl
    | disclose p c => exact other rfl
    | send p data m => exact other rfl
    | deliver p => exact other rfl

/-- `Stays`, computed. -/
def staysB (x : Sys) (s : Nat) : Bool :=
  (x.bh.all fun e => match e.op with | .remove s' _ => s' != s | _ => true) && x.dh.all fun e => match e.op with | .remove s' _ => s' != s | _ => true

theorem stays_of {x : Sys} {s : Nat} (h : staysB x s = true) : Stays x s := by
  simp only [staysB, Bool.and_eq_true, List.all_eq_true] at h
  constructor
  · intro e he o heq
    have := h.1 e he
    rw [heq] at this
    simp at this
  · intro e he o heq
    have := h.2 e he
    rw [heq] at this
    simp at this

/-- The actions of the example: client 1 subscribes to "t" and gets SUBSCRIBED; then 2 and 3 publish, and 1 itself. -/
def before : List Action := three ++ does 1 (.subscribe 1 none (str "t")) ++ [.deliver 1]
def later : List Action :=
  does 2 (.publish 1 none (str "t") (some [.bool true]) none) ++ does 3 (.publish 1 none (str "u") none none) ++ [.deliver 1] ++
  does 1 (.publish 2 (some [(str "acknowledge", .bool true)]) (str "t") (some [.bool false]) none) ++ [.leave 3 [] []]

example : ∃ l l', Log.Reach Dealer.noWild l ∧ l.run Dealer.noWild later = some l' ∧ .subscribed 1 1 ∈ l.got 1 ∧ l'.sys.bh.length ≤ 2 ^ 53 ∧
    Stays l'.sys 1 ∧ (∀ o t', .subscribe 1 o t' ∈ l'.sys.sent 1 → t' = str "t") ∧ (∀ q, .unsubscribe q 1 ∉ l'.sys.sent 1) ∧
    (∀ q ∈ l.taken Dealer.noWild later, publishedTo (str "t") q.2 ≠ none → Stays l'.sys q.1) ∧
    (l.taken Dealer.noWild later).map (fun q => (q.1, glance q.2)) = [(2, 16, 1), (3, 16, 1), (1, 16, 2)] ∧
    (l'.inbox 1).map glance = [(33, 1), (36, 2), (36, 4), (17, 2)] := by
  refine ⟨logged before, logged (before ++ later), reach_logged _, rfl, .head _, ?_, stays_of ?_, ?_, ?_, ?_, ?_, ?_⟩
  · decide +kernel
  · decide +kernel
  · intro o t' h
    have : (logged (before ++ later)).sys.sent 1 = [.publish 2 (some [(str "acknowledge", .bool true)]) (str "t") (some [.bool false]) none,
      .subscribe 1 none (str "t")] := rfl
    rw [this] at h
    simp at h
    exact h.2
  · intro q h
    have : (logged (before ++ later)).sys.sent 1 = [.publish 2 (some [(str "acknowledge", .bool true)]) (str "t") (some [.bool false]) none,
      .subscribe 1 none (str "t")] := rfl
    rw [this] at h
    simp at h
  · have : (logged before).taken Dealer.noWild later = [(2, .publish 1 none (str "t") (some [.bool true]) none), (3, .publish 1 none (str "u") none none),
      (1, .publish 2 (some [(str "acknowledge", .bool true)]) (str "t") (some [.bool false]) none)] := rfl
    rw [this]
    intro q hq hne
    simp only [List.mem_cons, List.not_mem_nil, or_false] at hq
    rcases hq with rfl | rfl | rfl
    · exact stays_of (by decide +kernel)
    · exact absurd (by decide +kernel) hne
    · exact stays_of (by decide +kernel)
  · decide +kernel
  · decide +kernel

/-! ### C110 -/

/-- What REGISTERED and INVOCATION are sent for. -/
theorem dealer_answer {b : Dealer.State} {op : Dealer.Op} {out : Msg} {to : Nat} (h : (Dealer.step w b op).2 = .ok (.msg out to)) :
    ∃ s m wo rnd, op = .receive s m wo rnd ∧ (∀ r g, out = .registered r g → s = to ∧ ∃ o p, m = .register r o p) ∧
      ∀ i g d a k bin, out = .invocation i g d a k bin → ∃ r o p a k bin, m = .call r o p a k bin := by
  cases op with
  | add d => have := admin_outD (w := w) b (op := .add d) trivial; rw [h] at this; cases this
  | remove s o => have := admin_outD (w := w) b (op := .remove s o) trivial; rw [h] at this; cases this
  | disclose on => have := admin_outD (w := w) b (op := .disclose on) trivial; rw [h] at this; cases this
  | has t => cases h
  | receive p m wo rnd =>
    refine ⟨p, m, wo, rnd, rfl, ?_⟩
    simp only [Dealer.step] at h
    cases hr : (Dealer.receive w b p m wo rnd).2 with
    | err => rw [hr] at h; cases h
    | panic => rw [hr] at h; cases h
    | ok v =>
      rw [hr] at h
      simp only [Res.map_ok, Res.ok.injEq, Dealer.Out.msg.injEq] at h
      have hv : v = (out, to) := by rw [← h.1, ← h.2]
      subst hv
      clear h
      cases m <;> simp only [Dealer.receive, reduceCtorEq] at hr
      case call r o p a k bin =>
        refine ⟨?_, fun _ _ _ _ _ _ _ => ⟨_, _, _, _, _, _, rfl⟩⟩
        rcases Dealer.call_cases w b _ r o p a k bin wo rnd with ⟨-, e⟩ | ⟨e, -⟩ | ⟨x, callee, _, inv, -, -, -, -, ⟨-, e⟩ | ⟨c, -, -, e⟩⟩ <;>
          rw [e] at hr <;> simp only [Res.ok.injEq, Prod.mk.injEq, reduceCtorEq] at hr
        · rw [← hr.1]; intro r g h; cases h
        · obtain ⟨d, a', k', bin', e'⟩ := Dealer.invocationFor_shape b x inv _ o p a k bin c
          rw [← hr.1, e']; intro r g h; cases h
      case yield r o a k bin =>
        rcases Dealer.yield_cases b r o a k bin with ⟨-, e⟩ | ⟨p, -, -, ⟨-, e⟩ | ⟨c, -, e⟩⟩ <;> rw [e] at hr <;>
          simp only [Res.ok.injEq, Prod.mk.injEq, reduceCtorEq] at hr
        obtain ⟨d', a', k', bin', e1, -⟩ := Dealer.resultFor_shape p.requestID (p.receiveProgress && o.flag Dealer.optProgress) a k bin c
        rw [← hr.1, e1]
        constructor <;> intros <;> contradiction
      case register r o p =>
        rcases Dealer.register_cases b _ r o p with ⟨-, e⟩ | ⟨_, -, ⟨_, -, -, e⟩ | ⟨_, -, -, e⟩ | ⟨-, e⟩⟩ <;> rw [e] at hr <;>
          simp only [Res.ok.injEq, Prod.mk.injEq, reduceCtorEq] at hr <;> rw [← hr.1, ← hr.2]
        · constructor <;> intros <;> contradiction
        · refine ⟨fun r g h => ?_, by intros; contradiction⟩
          cases h; exact ⟨rfl, _, _, rfl⟩
        · refine ⟨fun r g h => ?_, by intros; contradiction⟩
          cases h; exact ⟨rfl, _, _, rfl⟩
      case unregister r i =>
        rcases Dealer.unregister_cases b _ r i with e | e | ⟨_, _, -, -, e, -⟩ <;> rw [e] at hr <;>
          simp only [Res.ok.injEq, Prod.mk.injEq, reduceCtorEq] at hr <;> rw [← hr.1]
        constructor <;> intros <;> contradiction
      case error t r d u a k =>
        rcases Dealer.error_cases b t r d u a k with ⟨-, e⟩ | ⟨-, p, -, e⟩ <;> rw [e] at hr <;>
          simp only [Res.ok.injEq, Prod.mk.injEq, reduceCtorEq] at hr <;> rw [← hr.1]
        constructor <;> intros <;> contradiction

/-- A broker's message is of a broker. -/
theorem broker_from {h : List Broker.Event} {b : Broker.State} (hh : Broker.Hist w h b) (hl : h.length < 2 ^ 53) (op : Broker.Op) {s : Nat} {m : Msg}
    (hq : (s, m) ∈ brokerOut (Broker.step w b op).2) : fromBroker m := by
  cases op with
  | add d => rw [admin_outB (op := .add d) _ trivial] at hq; cases hq
  | remove s o => rw [admin_outB (op := .remove s o) _ trivial] at hq; cases hq
  | disclose on => rw [admin_outB (op := .disclose on) _ trivial] at hq; cases hq
  | has t => cases hq
  | publish p q o u a k wo so =>
    rcases Broker.publish_result hh hl p q o u a k wo so with ⟨-, e, -⟩ | ⟨-, pub, hpub, n, -, -, hack, hev⟩
    · simp [Broker.step, e, brokerOut] at hq
    · simp only [Broker.step, hpub, Res.map_ok, brokerOut, List.mem_append] at hq
      rcases hq with hq | hq
      · rcases hev with ⟨e1, -, -⟩ | ⟨t, i, -, e1, -⟩ <;> rw [e1] at hq
        · cases hq
        · simp only [List.mem_map, Prod.mk.injEq] at hq
          obtain ⟨_, -, -, rfl⟩ := hq
          trivial
      · rw [hack] at hq
        by_cases hf : o.flag (str "acknowledge") = true
        · rw [if_pos hf] at hq
          simp only [List.mem_singleton, Prod.mk.injEq] at hq
          obtain ⟨-, rfl⟩ := hq
          trivial
        · rw [if_neg hf] at hq; cases hq
  | receive p m =>
    cases m
    case subscribe q o t =>
      rcases subscribed_of (w := w) (b := b) (s := p) (q := q) (o := o) (t := t) with e | ⟨j, e⟩
      · rw [e] at hq; cases hq
      · rw [e] at hq
        simp only [brokerOut, List.mem_singleton, Prod.mk.injEq] at hq
        obtain ⟨rfl, rfl⟩ := hq
        trivial
    case unsubscribe q g =>
      have : (Broker.step w b (.receive p (.unsubscribe q g))).2 = .err ∨
          (Broker.step w b (.receive p (.unsubscribe q g))).2 = .panic ∨
          (Broker.step w b (.receive p (.unsubscribe q g))).2 = .ok (.msg (.unsubscribed q) p) := by
        simp only [Broker.step, Broker.receive, Broker.unsubscribe]
        repeat' (first | exact .inl rfl | exact .inr (.inl rfl) | exact .inr (.inr rfl) | split)
      rcases this with e | e | e <;> rw [e] at hq <;> simp only [brokerOut, List.mem_singleton, Prod.mk.injEq, List.not_mem_nil] at hq
      obtain ⟨rfl, rfl⟩ := hq
      trivial
    all_goals simp [Broker.step, Broker.receive, brokerOut] at hq

/-- A message of a dealer in an inbox comes from an event of the dealer. -/
theorem inbox_dealer {l : Log} (h : Log.Reach w l) (hlen : l.sys.bh.length ≤ 2 ^ 53) {s : Nat} {m : Msg} (hm : m ∈ l.inbox s) (hf : fromDealer m) :
    ∃ e ∈ l.sys.dh, e.res = .ok (.msg m s) ∧ ∃ h' b', Dealer.Hist w h' b' ∧ (Dealer.step w b' e.op).2 = .ok (.msg m s) := by
  rcases (log_out h).src s _ hm with ⟨e, he, hq⟩ | ⟨e, he, hq⟩
  · obtain ⟨h', b', hh, hl, ee⟩ := hist_eventB (reach_hist (log_sys h)).1 hlen he
    rw [ee] at hq
    exact (fromDealerB (broker_from hh hl _ hq) hf).elim
  · have := dealer_msg hq
    obtain ⟨h', b', hh, -, -, ee⟩ := hist_eventD (reach_hist (log_sys h)).2 he
    refine ⟨e, he, this, h', b', hh, ?_⟩
    rw [ee] at this
    exact this

/-- A REGISTERED in an inbox answers a REGISTER the dealer was given. -/
theorem registered_event {l : Log} (h : Log.Reach w l) (hlen : l.sys.bh.length ≤ 2 ^ 53) {s r g : Nat} (hi : .registered r g ∈ l.inbox s) :
    ∃ o p wo rnd, (⟨.receive s (.register r o p) wo rnd, .ok (.msg (.registered r g) s)⟩ : Dealer.Event) ∈ l.sys.dh := by
  obtain ⟨e, he, h1, h', b', -, h2⟩ := inbox_dealer h hlen hi trivial
  obtain ⟨s', m, wo, rnd, h3, h4, -⟩ := dealer_answer h2
  obtain ⟨rfl, o, p, rfl⟩ := h4 _ _ rfl
  obtain ⟨op, res⟩ := e
  simp only at h1 h3
  subst h1 h3
  exact ⟨o, p, wo, rnd, he⟩

/-- An INVOCATION in an inbox was sent for a CALL. -/
theorem invocation_event {l : Log} (h : Log.Reach w l) (hlen : l.sys.bh.length ≤ 2 ^ 53) {s i g : Nat} {d : GoMap} {a : GoSlice} {k : GoMap} {bin : Bin}
    (hi : .invocation i g d a k bin ∈ l.inbox s) : ∃ e ∈ l.sys.dh, ∃ c r, Dealer.invoked c r i s e := by
  obtain ⟨e, he, h1, h', b', -, h2⟩ := inbox_dealer h hlen hi trivial
  obtain ⟨s', m, wo, rnd, h3, -, h4⟩ := dealer_answer h2
  obtain ⟨r, o, p, a', k', bin', rfl⟩ := h4 _ _ _ _ _ _ rfl
  refine ⟨e, he, s', r, ?_⟩
  obtain ⟨op, res⟩ := e
  simp only at h1 h3
  subst h1 h3
  exact ⟨_, _, _, _, _, _, _, _, _, _, _, _, rfl⟩

theorem owner_same {e : Dealer.Event} {h : List Dealer.Event} {c g : Nat} {p : Str} (hc : Dealer.owner h p = some (c, g))
    (h1 : ∀ s i, ¬Dealer.registeredAs s p i e) (h2 : ∀ q wo rnd, e.op ≠ .receive c (.unregister q g) wo rnd) (h3 : ∀ o, e.op ≠ .remove c o) :
    Dealer.owner (e :: h) p = some (c, g) := by
  unfold Dealer.owner
  split
  · cases ‹_ :: _ = [] ›
  · rename_i heq
    injection heq with h4 h5
    subst h4 h5
    split
    · rename_i hst
      subst hst
      exact absurd ⟨_, _, _, _, _, _, rfl⟩ (h1 _ _)
    · exact hc
  · rename_i heq
    injection heq with h4 h5
    subst h4 h5
    split
    · rename_i hst
      rw [hc] at hst
      cases hst
      exact absurd rfl (h2 _ _ _)
    · exact hc
  · rename_i heq
    injection heq with h4 h5
    subst h4 h5
    split
    · rename_i hst
      rw [hc] at hst
      cases hst
      exact absurd rfl (h3 _)
    · exact hc
  · rename_i heq
    injection heq with h4 h5
    subst h5
    exact hc

/-- An exclusive registration lasts until it is given up. -/
theorem owner_kept {h : List Dealer.Event} {b : Dealer.State} (hh : Dealer.Hist w h b) (hlen : h.length ≤ 2 ^ 53) {c g : Nat} {p : Str}
    (hs : Dealer.Single p h) {e : Dealer.Event} (he : e ∈ h) (hreg : Dealer.registeredAs c p g e)
    (hu : ∀ e ∈ h, ∀ q wo rnd, e.op ≠ .receive c (.unregister q g) wo rnd) (hr : ∀ e ∈ h, ∀ o, e.op ≠ .remove c o) :
    Dealer.owner h p = some (c, g) := by
  induction hh with
  | new => cases he
  | @step h b op hh hnp ih =>
    simp only [List.length_cons] at hlen
    have hS := Dealer.hist_sinv hh
    rcases List.mem_cons.1 he with he | he
    · subst he
      obtain ⟨q, o, wo, rnd, q', s', e⟩ := hreg
      rw [e]
      simp [Dealer.owner]
    · have ih := ih (by omega) hs.tail he (fun e he => hu e (.tail _ he)) (fun e he => hr e (.tail _ he))
      refine owner_same ih ?_ (hu _ (.head _)) (hr _ (.head _))
      rintro s i ⟨q, o, wo, rnd, q', s', e⟩
      injection e with h5 h6
      subst h5
      have hat : Dealer.attached h s := by
        unfold Dealer.attached
        rw [← hS.bys]
        simp only [Dealer.step, Dealer.receive] at h6
        rcases Dealer.register_cases b s q o p with ⟨-, e⟩ | ⟨m, hm, -⟩
        · rw [e] at h6; cases h6
        · rw [hm]; rfl
      have := ((Dealer.C52_register hh hlen p hs.tail s q o wo rnd hat).1).1 (by rw [ih]; simp)
      rw [this] at h6
      cases h6

/-- **C110** A client that got REGISTERED for its REGISTER of `p`, has sent no UNREGISTER for that registration, and has not been removed, gets
an INVOCATION for the next CALL of `p` that the router takes from a client, with the content of the CALL; nobody else gets anything.
(If all REGISTERs for `p` ask for the single policy, or for none.) -/
theorem C110_stays_callable {l : Log} (h : Log.Reach w l) (hb : l.sys.bh.length ≤ 2 ^ 53) (hd : l.sys.dh.length < 2 ^ 53) (c r g : Nat) (p : Str)
    (hreg : .registered r g ∈ l.inbox c) (hr : ∀ o p', .register r o p' ∈ l.sys.sent c → p' = p)
    (hsingle : ∀ s q o, .register q o p ∈ l.sys.sent s → o.text (str "invoke") = [] ∨ o.text (str "invoke") = str "single")
    (hu : ∀ q, .unregister q g ∉ l.sys.sent c) (hc : Stays l.sys c) (s q : Nat) (hs : Stays l.sys s) (o : GoMap) (a : GoSlice) (k : GoMap) (bin : Bin)
    (rest : List Msg) (wo : List Str) (so : List Nat) (rnd : Nat) (hup : l.sys.up s = .call q o p a k bin :: rest) :
    ∃ l', l.act w (.route s wo so rnd) = some l' ∧
      (∃ i d a' k' bin', l'.inbox c = l.inbox c ++ [.invocation i g d a' k' bin'] ∧ sameContent a k bin a' k' bin') ∧
      ∀ s' ≠ c, l'.inbox s' = l.inbox s' := by
  have hx := log_sys h
  have hh := (reach_hist hx).2
  have hS := reach_sent hx
  have hA := reach_att hx hb
  obtain ⟨ro, p', wo', rnd', he⟩ := registered_event h hb hreg
  have hp : p' = p := hr ro p' (hS.dh _ he _ _ _ _ rfl)
  subst hp
  have hsg : Dealer.Single p' l.sys.dh := fun e he s q o wo rnd hop => hsingle s q o (hS.dh e he _ _ _ _ hop)
  have ho : Dealer.owner l.sys.dh p' = some (c, g) :=
    owner_kept hh (Nat.le_of_lt hd) hsg he ⟨r, ro, wo', rnd', r, c, rfl⟩ (fun e he q wo rnd hop => hu q (hS.dh e he _ _ _ _ hop)) hc.2
  have hsa : Dealer.attached l.sys.dh s :=
    hA.jd s (hA.sj s (List.ne_nil_of_mem (hS.up s _ (by rw [hup]; exact .head _)))) hs
  obtain ⟨j, d, a', k', bin', hres⟩ := Dealer.C52_call hh hd p' hsg s q o a k bin wo rnd (fun _ => hsa) c g ho
  have hcase := dealer_caused hx hd c s (.call q o p' a k bin) wo rnd
  rw [hres] at hcase
  have hone : messagesFor c (dealerOut (.ok (.msg (.invocation j g d a' k' bin') c))) = [.invocation j g d a' k' bin'] := by
    simp [dealerOut, messagesFor_one]
  rw [hone] at hcase
  obtain ⟨l', hl', hin⟩ : ∃ l', l.act w (.route s wo so rnd) = some l' ∧
      ∀ s', l'.inbox s' = l.inbox s' ++ messagesFor s' (dealerOut (.ok (.msg (.invocation j g d a' k' bin') c))) := by
    refine ⟨⟨Sys.post { ({ l.sys with up := upd l.sys.up s rest } : Sys) with
        dealer := (Dealer.step w l.sys.dealer (.receive s (.call q o p' a k bin) wo rnd)).1,
        dh := ⟨.receive s (.call q o p' a k bin) wo rnd, .ok (.msg (.invocation j g d a' k' bin') c)⟩ :: l.sys.dh }
        (dealerOut (.ok (.msg (.invocation j g d a' k' bin') c))), l.got⟩, ?_, ?_⟩
    · simp only [Log.act, Sys.act, hup, Sys.handle, Sys.onDealer, hres, Option.map_some]
    · intro s'
      simp only [Log.inbox, Sys.post, List.append_assoc]
  refine ⟨l', hl', ⟨j, d, a', k', bin', ?_, ?_⟩, fun s' hs' => ?_⟩
  · rw [hin, hone]
  · rcases hcase with h | ⟨e, h1, -, hca⟩
    · cases h
    · cases h1
      obtain ⟨_, _, _, _, _, _, hm, hcont, -⟩ := hca
      cases hm
      exact hcont
  · rw [hin]
    simp [dealerOut, messagesFor_one, Ne.symm hs']

/-- Client 2 registers "p", client 3 tries too; a CALL of client 1 waits. -/
def waiting : List Action :=
  three ++ does 2 (.register 1 none (str "p")) ++ [.deliver 2] ++ does 3 (.register 1 none (str "p")) ++
  [.send 1 [] (.call 7 none (str "p") (some [.bool true]) none Bin.none)]

example : ∃ l, Log.Reach Dealer.noWild l ∧ l.sys.bh.length ≤ 2 ^ 53 ∧ l.sys.dh.length < 2 ^ 53 ∧ .registered 1 1 ∈ l.got 2 ∧
    (∀ o p', .register 1 o p' ∈ l.sys.sent 2 → p' = str "p") ∧
    (∀ s q o, .register q o (str "p") ∈ l.sys.sent s → o.text (str "invoke") = [] ∨ o.text (str "invoke") = str "single") ∧
    (∀ q, .unregister q 1 ∉ l.sys.sent 2) ∧ Stays l.sys 2 ∧ Stays l.sys 1 ∧
    l.sys.up 1 = [.call 7 none (str "p") (some [.bool true]) none Bin.none] ∧ (l.sys.down 3).map glance = [(8, 1)] := by
  have h2 : (logged waiting).sys.sent 2 = [.register 1 none (str "p")] := rfl
  refine ⟨logged waiting, reach_logged _, ?_, ?_, .head _, ?_, ?_, ?_, stays_of ?_, stays_of ?_, rfl, ?_⟩
  · decide +kernel
  · decide +kernel
  · intro o p' h
    rw [h2] at h
    simp at h
    exact h.2
  · intro s q o h
    have : s = 1 ∨ s = 2 ∨ s = 3 ∨ (logged waiting).sys.sent s = [] := by
      by_cases e1 : s = 1
      · exact .inl e1
      · by_cases e2 : s = 2
        · exact .inr (.inl e2)
        · by_cases e3 : s = 3
          · exact .inr (.inr (.inl e3))
          · refine .inr (.inr (.inr ?_))
            show upd (upd (upd (fun _ => []) 2 _) 3 _) 1 _ s = []
            simp [upd, e1, e2, e3]
    rcases this with rfl | rfl | rfl | e
    · have h1 : (logged waiting).sys.sent 1 = [.call 7 none (str "p") (some [.bool true]) none Bin.none] := rfl
      rw [h1] at h
      simp at h
    · rw [h2] at h
      simp at h
      rw [h.2]; exact .inl rfl
    · have h3 : (logged waiting).sys.sent 3 = [.register 1 none (str "p")] := rfl
      rw [h3] at h
      simp at h
      rw [h.2]; exact .inl rfl
    · rw [e] at h; cases h
  · intro q h
    rw [h2] at h
    simp at h
  · decide +kernel
  · decide +kernel
  · decide +kernel

end Wamp.System
