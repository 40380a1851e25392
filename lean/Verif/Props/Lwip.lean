import Verif.Proof.Lwip3
/-
C63, C64: the lwIP packet filter asks the rules about every event with the traffic's own addresses, and
answers lwIP what they say.
-/
namespace WS.Props
open WS WS.Spec WS.Spec.Lwip WS.Lwip

/-! ## C63 — the answer -/

/-- Without a context, and for an event the layer does not have, the packet passes and nothing changes. -/
theorem C63_unfiltered {σ : Type} (E : DispEnv σ) (resolve : List Byte → Except Err Event) (ctx : Bool) (thr : Thr) (s : Sighting)
    (w : World σ) (fuel : Nat) (h : ctx = false ∨ Has s.layer s.reason = false) :
    filter E resolve ctx thr s.layer.ports (planOf s) w fuel = .ret w .ok := by
  unfold filter
  cases ctx with
  | false => rfl
  | true =>
    rcases h with h | h
    · cases h
    · rw [planOf_pass s h]; rfl

/-- The library never fails on a question of the packet filter, so the rule "errors let the packet pass" is
never used. -/
theorem C63_library_never_fails {σ : Type} (E : DispEnv σ) (resolve : List Byte → Except Err Event) (s : Sighting) (w : World σ) (fuel : Nat)
    (q : Ask) (hq : planOf s = .ask q) (d : DispRes σ) (h : E.dispatchInited resolve w q.remote q.loc q.flags none q.ares fuel = some d) :
    ∃ k, d.ret = .ok k := by
  have hh : Has s.layer s.reason = true := by
    cases hx : Has s.layer s.reason with
    | true => rfl
    | false => rw [planOf_pass s hx] at hq; cases hq
  have hp : Proper s := by
    apply Classical.byContradiction
    intro hp
    rw [planOf_crash s hh hp] at hq; cases hq
  obtain ⟨f, a, h1, _, _, h4, h5, h6⟩ := question_init s hh hp
  rw [h1] at hq
  cases hq
  unfold DispEnv.dispatchInited at h
  rw [if_pos h5] at h
  exact dispatch1_ret h4 h6 h

/-- Were it used (the model leaves out a lock that cannot be taken), an error of the library would let the
packet pass, whatever the results say. -/
theorem C63_library_error_passes (ports : Bool) (e : Err) (a : Flags) : verdict ports (.error e) a = .ok := rfl

/-- C63: the answer is what the library's results say: a reset where the results ask for one (12) and the
layer has ports, else an abort if they reject (1), else the packet passes; and nothing else of the results
matters. -/
theorem C63_answer {σ : Type} {E : DispEnv σ} {resolve : List Byte → Except Err Event} {s : Sighting} {w w2 : World σ} {fuel : Nat} {e : ErrT}
    (hh : Has s.layer s.reason = true) (h : filter E resolve true {} s.layer.ports (planOf s) w fuel = .ret w2 e) :
    ∃ t a d, Question s t a ∧
      E.dispatchInited resolve w (remoteOf s) (localOf s) t.flags none a fuel = some d ∧ d.w = w2 ∧
      e = answer (s.layer = .tcp ∨ s.layer = .udp) (d.ares.getLsbD 12 = true) (d.ares.getLsbD 1 = true) := by
  have hp := filter_ret_proper hh h
  obtain ⟨f, a, h1, h2, h3, h4, h5, _⟩ := question_init s hh hp
  have hq : Question s (questionOf s f) a := ⟨rfl, h2, h3⟩
  obtain ⟨e1, e2, e3⟩ := filter_question E resolve {} w fuel hq hh hp rfl
  refine ⟨questionOf s f, a, ?_⟩
  rw [e3] at h
  unfold DispEnv.dispatchInited
  rw [if_pos h5]
  cases hd : E.dispatch1 resolve w (remoteOf s) (localOf s) (questionOf s f).flags none a fuel with
  | none => rw [hd] at h; cases h
  | some d =>
    rw [hd] at h
    simp only [Bool.not_true, Bool.false_eq_true, if_false, Out.ret.injEq] at h
    refine ⟨d, hq, rfl, h.1, ?_⟩
    obtain ⟨k, hk⟩ := dispatch1_ret e1 e2 hd
    rw [← h.2, hk]
    unfold verdict answer
    rw [has_of_bit (m := AR.PORT_RESET) (k := 12) rfl (by decide), has_of_bit (m := AR.REJECT) (k := 1) rfl (by decide)]
    have hports : s.layer.ports = true ↔ (s.layer = .tcp ∨ s.layer = .udp) := by cases s.layer <;> simp [Layer.ports]
    simp only [Bool.and_eq_true, hports]

/-- C63, an event decided by a rule: refused exactly when the rule rejects it. -/
theorem C63_rule_decides_partial {σ : Type} {E : DispEnv σ} (hE : Observing E) {resolve : List Byte → Except Err Event} {s : Sighting} {w w2 : World σ}
    {fuel : Nat} {e : ErrT} {t r : Route} {a inx : Flags} (hin : (w.T.ents.map (·.id)).Nodup) (h14 : ∀ x ∈ w.T.ents, x.flags.getLsbD 14 = true)
    (hh : Has s.layer s.reason = true) (hq : Question s t a) (hl : lookup w.T t false (some a) fuel = some (.ok (r, inx)))
    (h : filter E resolve true {} s.layer.ports (planOf s) w fuel = .ret w2 e) :
    let c := configFor E w r
    let st := starting c E.clock (reported a)
    e = answer (s.layer = .tcp ∨ s.layer = .udp) (RuleResets c w.T.defaultPolicy (clockNow E.clock) r st)
      (RuleRejects c w.T.defaultPolicy (clockNow E.clock) r st) := by
  intro c st
  have hp := filter_ret_proper hh h
  obtain ⟨e1, e2, e3⟩ := filter_question E resolve {} w fuel hq hh hp rfl
  rw [e3] at h
  cases hd : E.dispatch1 resolve w (remoteOf s) (localOf s) t.flags none a fuel with
  | none => rw [hd] at h; cases h
  | some d =>
    rw [hd] at h
    simp only [Bool.not_true, Bool.false_eq_true, if_false, Out.ret.injEq] at h
    obtain ⟨k, hk⟩ := dispatch1_ret e1 e2 hd
    have hr := (lookup_sound w.T (some a) t fuel r inx hl).1
    obtain ⟨b1, b12⟩ := dispatch1_bits hE hin hr (h14 r hr) e1 e2 hl hd
    rw [← h.2, hk]
    unfold verdict answer
    rw [has_of_bit (m := AR.PORT_RESET) (k := 12) rfl (by decide), has_of_bit (m := AR.REJECT) (k := 1) rfl (by decide)]
    have hports : s.layer.ports = true ↔ (s.layer = .tcp ∨ s.layer = .udp) := by cases s.layer <;> simp [Layer.ports]
    simp only [Bool.and_eq_true, hports, b1, b12]
    rfl

/-- C63: traffic of a penalty-boxed rule does not get through, on any layer. -/
theorem C63_boxed_refused_partial {σ : Type} {E : DispEnv σ} (hE : Observing E) {resolve : List Byte → Except Err Event} {s : Sighting} {w w2 : World σ}
    {fuel : Nat} {e : ErrT} {t r : Route} {a inx : Flags} (hin : (w.T.ents.map (·.id)).Nodup) (h14 : ∀ x ∈ w.T.ents, x.flags.getLsbD 14 = true)
    (hh : Has s.layer s.reason = true) (hq : Question s t a) (hl : lookup w.T t false (some a) fuel = some (.ok (r, inx)))
    (hb : BoxHeld (configFor E w r) (clockNow E.clock) r (starting (configFor E w r) E.clock (reported a)))
    (h : filter E resolve true {} s.layer.ports (planOf s) w fuel = .ret w2 e) :
    e ≠ .ok ∧ (s.layer = .tcp ∨ s.layer = .udp → r.flags.getLsbD 24 = true → e = .rst) := by
  have he := C63_rule_decides_partial hE hin h14 hh hq hl h
  simp only at he
  have hrej : RuleRejects (configFor E w r) w.T.defaultPolicy (clockNow E.clock) r (starting (configFor E w r) E.clock (reported a)) := .inr (.inl hb)
  rw [he]
  unfold answer
  refine ⟨?_, fun hp h24 => ?_⟩
  · split
    · simp
    · simp
  · rw [if_pos ⟨hp, .inl ⟨hrej, h24⟩⟩]

/-- C63, an event no rule is found for (and no post actions in force): the default policy decides, and
nothing changes. -/
theorem C63_no_rule {σ : Type} {E : DispEnv σ} {resolve : List Byte → Except Err Event} {s : Sighting} {w w2 : World σ}
    {fuel : Nat} {e : ErrT} {t : Route} {a : Flags} {err : Err}
    (hh : Has s.layer s.reason = true) (hq : Question s t a) (hl : lookup w.T t false (some a) fuel = some (.error err))
    (hpost : ∀ x, w.T.defaultEvent = some x → x.postActions = [])
    (h : filter E resolve true {} s.layer.ports (planOf s) w fuel = .ret w2 e) :
    w2 = w ∧ e = answer (s.layer = .tcp ∨ s.layer = .udp) (w.T.defaultPolicy.getLsbD 12 = true) (w.T.defaultPolicy.getLsbD 1 = true) := by
  have hp := filter_ret_proper hh h
  obtain ⟨e1, e2, e3⟩ := filter_question E resolve {} w fuel hq hh hp rfl
  rw [e3] at h
  cases hd : E.dispatch1 resolve w (remoteOf s) (localOf s) t.flags none a fuel with
  | none => rw [hd] at h; cases h
  | some d =>
    rw [hd] at h
    simp only [Bool.not_true, Bool.false_eq_true, if_false, Out.ret.injEq] at h
    obtain ⟨k1, k2, _, k4⟩ := C23_no_rule_default_policy (trig := none) rfl e1 hl (fun x hx => hpost x hx) hd
    refine ⟨h.1.symm.trans k2, ?_⟩
    have hrep : ∀ k, k ≠ 4 → k ≠ 5 → ¬ ToldBit s k → (reported a).getLsbD k = false := by
      intro k h4 h5 hk
      have ha : a.getLsbD k = false := by
        cases hx : a.getLsbD k with
        | false => rfl
        | true => exact absurd ((hq.2.2 k).1 hx) hk
      unfold reported
      split
      · rw [BitVec.getLsbD_and, ha]; rfl
      · exact ha
    have n1 : ¬ ToldBit s 1 := by unfold ToldBit; omega
    have n12 : ¬ ToldBit s 12 := by unfold ToldBit; omega
    have b1 : d.ares.getLsbD 1 = w.T.defaultPolicy.getLsbD 1 := by rw [k4 1, hrep 1 (by decide) (by decide) n1]; simp
    have b12 : d.ares.getLsbD 12 = w.T.defaultPolicy.getLsbD 12 := by rw [k4 12, hrep 12 (by decide) (by decide) n12]; simp
    rw [← h.2, k1]
    unfold verdict answer
    rw [has_of_bit (m := AR.PORT_RESET) (k := 12) rfl (by decide), has_of_bit (m := AR.REJECT) (k := 1) rfl (by decide), b1, b12]
    have hports : s.layer.ports = true ↔ (s.layer = .tcp ∨ s.layer = .udp) := by cases s.layer <;> simp [Layer.ports]
    simp only [Bool.and_eq_true, hports]

/-- C63: when the thread context cannot be set up the packet is refused and nothing changes. -/
theorem C63_no_thread_context {σ : Type} (E : DispEnv σ) (resolve : List Byte → Except Err Event) (thr : Thr) (s : Sighting)
    (w : World σ) (fuel : Nat) (hh : Has s.layer s.reason = true) (hp : Proper s) (hup : thr.up = false) :
    filter E resolve true thr s.layer.ports (planOf s) w fuel = .ret w .mem := by
  obtain ⟨f, a, h1, _⟩ := question_init s hh hp
  unfold filter
  rw [h1]
  simp [hup]

/-- Finding: when the thread context cannot be torn down, the packet is refused too, whatever the rules
said — after their effects have happened. -/
theorem C63_teardown_failure {σ : Type} (E : DispEnv σ) (resolve : List Byte → Except Err Event) (s : Sighting) (w w2 : World σ) (fuel : Nat) (e : ErrT)
    (hh : Has s.layer s.reason = true) (h : filter E resolve true {} s.layer.ports (planOf s) w fuel = .ret w2 e) :
    filter E resolve true { down := false } s.layer.ports (planOf s) w fuel = .ret w2 .mem := by
  have hp := filter_ret_proper hh h
  obtain ⟨t, a, hq⟩ := question_exists s hh hp
  rw [(filter_question E resolve {} w fuel hq hh hp rfl).2.2] at h
  rw [(filter_question E resolve { down := false } w fuel hq hh hp rfl).2.2]
  cases hd : E.dispatch1 resolve w (remoteOf s) (localOf s) t.flags none a fuel with
  | none => rw [hd] at h; cases h
  | some d =>
    rw [hd] at h
    cases h
    rfl

/-- Finding: a TCP or UDP event without a local address, and the end of a TCP connection without a control
block, dereference NULL. -/
theorem C63_null_dereferenced {σ : Type} (E : DispEnv σ) (resolve : List Byte → Except Err Event) (thr : Thr) (s : Sighting)
    (w : World σ) (fuel : Nat) (hh : Has s.layer s.reason = true) (hp : ¬ Proper s) :
    filter E resolve true thr s.layer.ports (planOf s) w fuel = .stuck := by
  rw [planOf_crash s hh hp]; rfl

/-! Concrete events. -/

/-- A segment from 10.1.2.3:4000 to 10.9.9.9:22 on interface 1 reaches a listening socket. -/
def synSsh : Sighting :=
  { layer := .tcp, reason := .accepting, netif := some 1, laddr := some ⟨.v4, [10, 9, 9, 9]⟩, raddr := some ⟨.v4, [10, 1, 2, 3]⟩,
    lport := 22, rport := 4000, accepted := some false }
/-- The accepted connection is closed; the control block is bound to no interface. -/
def finSsh : Sighting := { synSsh with reason := .closed, netif := none, accepted := some true }
/-- A ping to the same host. -/
def pingIn : Sighting :=
  { layer := .icmp4, reason := .receiving, netif := some 1, laddr := some ⟨.v4, [10, 9, 9, 9]⟩, raddr := some ⟨.v4, [10, 1, 2, 3]⟩, code := 8 }

/-- Accept everything inbound on TCP port 22 from 10/8; `f`: more flags, `d`: counters. -/
def sshRule (f : Flags) (d : RouteMeta) : Route :=
  { ruleSsh 1 (RF.TCPLIKE_PORT_NUMBERS ||| bit 14 ||| f) with data := d }
/-- A table with that rule and a policy. -/
def sshWorld (f pol : Flags) (d : RouteMeta) : World Unit :=
  { T := { ents := [sshRule f d], highestPriority := 65535, defaultPolicy := pol }, ext := () }

/-- What lwIP gets, and the rule's connection count afterwards. -/
def ran (E : DispEnv Unit) (s : Sighting) (w : World Unit) : Option (ErrT × Option Nat) :=
  match filter E (fun _ => .error .itemNotFound) true {} s.layer.ports (planOf s) w 9 with
  | .stuck => none
  | .ret w2 e => some (e, (w2.T.get? 1).map (·.data.connectionCount))

/-- Greenlisted: accepted.  Boxed: aborted, or reset if so flagged.  No verdict: default policy. -/
theorem C63_examples :
    ran envQuiet synSsh (sshWorld (bit 21) AR.REJECT {}) = some (.ok, some 1) ∧
    ran envQuiet synSsh (sshWorld (bit 20) AR.ACCEPT {}) = some (.abrt, some 1) ∧
    ran envQuiet synSsh (sshWorld (bit 20 ||| bit 24) AR.ACCEPT {}) = some (.rst, some 1) ∧
    ran envQuiet synSsh (sshWorld 0 AR.REJECT {}) = some (.abrt, some 1) ∧
    ran envQuiet pingIn (sshWorld 0 AR.REJECT {}) = some (.abrt, some 0) ∧
    ran envQuiet pingIn (sshWorld 0 AR.ACCEPT {}) = some (.ok, some 0) := by
  decide

end WS.Props
