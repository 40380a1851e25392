import Verif.Proof.RoundTrip6
import Verif.Props.Config
import Verif.Props.Format
import Verif.Props.RouteInit
/-
C57: a rule that is exported as JSON and loaded again is the same rule.
-/
namespace WS.Props
open WS WS.Sax WS.Conf WS.Spec WS.Spec.Load WS.Spec.RoundTrip WS.RoundTrip

variable {α : Type}

theorem sizes_of {r : Route} (h : FieldsInRange r) : Sizes r := by
  obtain ⟨h1, h2, h3, h4, h5, h6, h7, h8⟩ := h
  exact ⟨h1, h2, h3, h4, h5, h6, h7, h8⟩

/-- The rule made of what the loader has read is the exported one. -/
theorem reload_creates {F : FmtEnv} {E : Env α} {r r0 : Route} {ev0 : Option Event} {remote0 loc0 : SockAddr} {flags0 : Flags}
    (hnew : routeNewForInsert ev0 remote0 loc0 flags0 = .ok r0) (hc : CreatedAs r0 r) (hrl : Reloadable F E r) {rem loc : Sa}
    (h1 : Holds r r.remote 1 5 6 { family := if r.flags.getLsbD 0 then 0 else r.family, proto := if r.flags.getLsbD 2 then 0 else r.proto } rem)
    (h2 : Holds r r.loc 4 3 7 { family := if r.flags.getLsbD 0 then 0 else r.family, proto := if r.flags.getLsbD 2 then 0 else r.proto } loc)
    (ev : Option Event) : routeNewForInsert ev (sockAddrOf rem) (sockAddrOf loc) (givenFlags r.flags) = .ok (asCreated r ev) := by
  unfold routeNewForInsert at hnew
  split at hnew
  · cases hnew
  obtain ⟨hok, he⟩ : CreateOK remote0 loc0 flags0 ∧ r0 =
      { event := ev0, flags := flags0, family := remote0.family, proto := remote0.proto,
        remote := initEndpoint remote0.ep (flags0.getLsbD 12), loc := initEndpoint loc0.ep (flags0.getLsbD 13) } := by
    rcases routeInit_cases ev0 remote0 loc0 flags0 with ⟨a, b⟩ | ⟨_, _, b⟩ | ⟨_, _, b⟩
    · rw [b] at hnew; injection hnew with hnew; exact ⟨a, hnew.symm⟩
    · rw [b] at hnew; cases hnew
    · rw [b] at hnew; cases hnew
  have hf : ∀ i < 14, r.flags.getLsbD i = flags0.getLsbD i := by
    intro i hi; rw [hc.flags i hi, he]
  have hbr : r.remote.bits = remote0.ep.bits := by rw [hc.remote.1, he]; rfl
  have hbl : r.loc.bits = loc0.ep.bits := by rw [hc.loc.1, he]; rfl
  have g12 : (givenFlags r.flags).getLsbD 12 = (!r.flags.getLsbD 1 && r.flags.getLsbD 12) := by
    rw [given_bit _ 12 (by decide), if_neg (by decide), if_pos rfl]
  have g13 : (givenFlags r.flags).getLsbD 13 = (!r.flags.getLsbD 4 && r.flags.getLsbD 13) := by
    rw [given_bit _ 13 (by decide), if_neg (by decide), if_neg (by decide), if_pos rfl]
  have gn : ∀ i, i < 32 → i ∈ namedBits ∨ i = 2 → (givenFlags r.flags).getLsbD i = r.flags.getLsbD i := by
    intro i hi h; rw [given_bit _ i hi, if_pos h]
  have n1 : r.flags.getLsbD 1 = false → Normal r.remote ((givenFlags r.flags).getLsbD 12) := by
    intro h
    rw [g12, h]
    simp only [Bool.not_false, Bool.true_and]
    refine normal_init (e0 := remote0.ep) hbr ?_ hrl.remote.1 ?_
    · rw [hc.remote.2 (by rw [← hc.flags 1 (by decide)]; exact h), he, hf 12 (by decide)]
    · intro h12; rw [hbr]; exact hok.remoteMask (by rw [← hf 12 (by decide)]; exact h12)
  have n2 : r.flags.getLsbD 4 = false → Normal r.loc ((givenFlags r.flags).getLsbD 13) := by
    intro h
    rw [g13, h]
    simp only [Bool.not_false, Bool.true_and]
    refine normal_init (e0 := loc0.ep) hbl ?_ hrl.loc.1 ?_
    · rw [hc.loc.2 (by rw [← hc.flags 4 (by decide)]; exact h), he, hf 13 (by decide)]
    · intro h12; rw [hbl]; exact hok.localMask (by rw [← hf 13 (by decide)]; exact h12)
  obtain ⟨a1, a2, a3⟩ := holds_init h1 n1 (fun h => by rw [g12, h]; rfl)
  obtain ⟨b1, b2, b3⟩ := holds_init h2 n2 (fun h => by rw [g13, h]; rfl)
  unfold routeNewForInsert
  rw [if_neg (by rw [a1, b1, a2, b2]; simp)]
  have hbits1 : (sockAddrOf rem).ep.bits = if r.flags.getLsbD 1 then 0 else r.remote.bits := h1.2.2.2.2.1
  have hbits2 : (sockAddrOf loc).ep.bits = if r.flags.getLsbD 4 then 0 else r.loc.bits := h2.2.2.2.2.1
  have hsize1 := hok.size
  have hok' : CreateOK (sockAddrOf rem) (sockAddrOf loc) (givenFlags r.flags) := by
    refine ⟨?_, ?_, ?_, ?_, ?_, ?_⟩
    · rw [hbits1, hbits2, hbr, hbl]
      split <;> split <;> omega
    · rw [gn 10 (by decide) (by decide), gn 11 (by decide) (by decide), hf 10 (by decide), hf 11 (by decide)]
      exact hok.direction
    · intro h
      rw [g12, Bool.and_eq_true, Bool.not_eq_true'] at h
      rw [hbits1, h.1, hbr]
      exact hok.remoteMask (by rw [← hf 12 (by decide)]; exact h.2)
    · intro h
      rw [g13, Bool.and_eq_true, Bool.not_eq_true'] at h
      rw [hbits2, h.1, hbl]
      exact hok.localMask (by rw [← hf 13 (by decide)]; exact h.2)
    · have := hok.sensical.1
      rw [gn 0 (by decide) (by decide), gn 1 (by decide) (by decide), gn 4 (by decide) (by decide), gn 2 (by decide) (by decide),
        hf 0 (by decide), hf 1 (by decide), hf 4 (by decide), hf 2 (by decide)]
      exact this
    · have := hok.sensical.2
      rw [gn 2 (by decide) (by decide), gn 5 (by decide) (by decide), gn 3 (by decide) (by decide),
        hf 2 (by decide), hf 5 (by decide), hf 3 (by decide)]
      exact this
  rcases routeInit_cases ev (sockAddrOf rem) (sockAddrOf loc) (givenFlags r.flags) with ⟨_, b⟩ | ⟨b, _⟩ | ⟨b, _⟩
  · rw [b, a3, b3, a1, a2]
    rfl
  · exact absurd hok' b
  · exact absurd hok' b

/-- C57: the export of a rule, put into a configuration and loaded, in whatever chunks, is exactly one insertion, of the same
rule: creating a rule from the inserted fields gives the fields, addresses and flags the rule was created with, and
its event is named. -/
theorem C57_export_reloads_partial (F : FmtEnv) (E : Env α) (hb : ReadsBack F E) (hE : NoEmptyEvent E) (tail : Tail) (ht : InPlaceTail tail)
    (c : EventConfig) (ev0 : Option Event) (remote0 loc0 : SockAddr) (flags0 : Flags) (r0 r : Route)
    (hnew : routeNewForInsert ev0 remote0 loc0 flags0 = .ok r0) (hc : CreatedAs r0 r)
    (numeric : Bool) (at_ : List Byte → Nat → List Byte) (hr : Renderable F r numeric at_) (hrl : Reloadable F E r)
    (cap : Nat) (hcap : cap < 2147483648) (hfit : (ruleJson r at_ (familyText F r numeric) (protoText F r numeric)).length ≤ cap) :
    ∃ s rem loc, formatJson F r numeric cap = .ok s ∧
      (∀ ev, routeNewForInsert ev (sockAddrOf rem) (sockAddrOf loc) (givenFlags r.flags) = .ok (asCreated r ev)) ∧
      ∀ chunks : List (List Byte), chunks.flatten = configText s.text → ∀ a a',
        E.call a (.routeInsert rem loc (givenFlags r.flags) (labelOf r)) = (a', none) →
        0 ≤ (load E tail loaderConfig false c a chunks).ret ∧ (load E tail loaderConfig false c a chunks).user.1 = a' := by
  obtain ⟨s, hs, htext, _⟩ := C47_export_exact F r numeric at_ cap hr hcap hfit
  have hf := hnew
  unfold routeNewForInsert at hf
  split at hf
  · cases hf
  have hsen : Sensical r.flags := by
    rcases routeInit_cases ev0 remote0 loc0 flags0 with ⟨a, b⟩ | ⟨_, _, b⟩ | ⟨_, _, b⟩
    · rw [b] at hf
      injection hf with hf
      have hi : ∀ i < 14, r.flags.getLsbD i = flags0.getLsbD i := fun i hi => by rw [hc.flags i hi, ← hf]
      have := a.sensical
      unfold Sensical at this ⊢
      rw [hi 0 (by decide), hi 1 (by decide), hi 2 (by decide), hi 3 (by decide), hi 4 (by decide), hi 5 (by decide)]
      exact this
    · rw [b] at hf; cases hf
    · rw [b] at hf; cases hf
  obtain ⟨rem, loc, hm, h1, h2⟩ := rule_reads (numeric := numeric) hb hrl (sizes_of hr.fields) (fun p hp => (hr.addrs p hp).1)
    (fun h => hsen.1 h) (fun h => ⟨(hsen.2 h).2, (hsen.2 h).1⟩)
  refine ⟨s, rem, loc, hs, reload_creates hnew hc hrl h1 h2, ?_⟩
  intro chunks hch a a' hcall
  have hend : ¬ Spec.Json.EndsInWord chunks.flatten := by
    rintro ⟨t, b, e, g⟩
    rw [hch] at e
    have hx : ascii "]}" = [0x5d#8] ++ [0x7d#8] := by decide
    unfold configText at e
    rw [hx, ← List.append_assoc] at e
    have := (List.append_inj' e rfl).2
    injection this with h
    subst h
    unfold Spec.Json.Digit at g
    revert g; decide
  refine (C56_text_meaning_partial E hE tail ht loaderConfig (by unfold Spec.Json.Strict; decide) false c chunks (fun _ h => hend (Sax.cutOff_ends h)) a a').2
    ⟨versioned "routes" (.arr [.obj ((ruleEntries F r numeric at_).map Entry.pair)]), ⟨?_, ?_⟩, ?_⟩
  · exact versioned_inPlace (by exact ⟨rule_inPlace F r numeric at_, trivial⟩)
  · rw [hch, htext]
    exact tx_document (rule_text hb hrl (sizes_of hr.fields) (fun p hp => (hr.addrs p hp).1)) _
  · have hbound : rem.addrLen ≤ 128 ∧ loc.addrLen ≤ 128 := by
      have key : ∀ (e : Endpoint) (aw bm : Nat), EndOk F E r e aw bm → (if r.flags.getLsbD aw then 0 else e.bits) ≤ 128 := by
        rintro e aw bm ⟨_, h⟩
        cases ha : r.flags.getLsbD aw with
        | true => simp
        | false =>
          have h := h ha
          cases hbm : r.flags.getLsbD bm with
          | true =>
            simp only [hbm, if_true] at h
            exact (mask_sizes h).2.2.2.2.2.2.2.2.2.2.2
          | false =>
            simp only [hbm, Bool.false_eq_true, if_false] at h
            exact (addr_sizes h).2.2.2
      exact ⟨by rw [h1.2.2.2.2.1]; exact key _ _ _ hrl.remote, by rw [h2.2.2.2.2.1]; exact key _ _ _ hrl.loc⟩
    have hrule : Elements (Rule E false) [.obj ((ruleEntries F r numeric at_).map Entry.pair)] a a' :=
      .cons (.mk hm (fun _ => hbound) (by unfold DidRule Did; exact hcall)) (.nil _)
    have hv : Section E false (ascii "wolfsentry-config-version") (.num [0x31#8] [0x2c#8]) { config := c, lib := a }
        { config := c, lib := a, versioned := true } := by
      refine .version ?_
      have := uint_decimal (bits := 32) (room := 16) (k := 1) (n := 1) (by decide) (by decide) (by decide) (by decide) (by decide) [0x2c#8]
      have e1 : decimal 1 = [0x31#8] := by rw [decimal]; decide
      rwa [e1] at this
    have hsec : Section E false (ascii "routes") (.arr [.obj ((ruleEntries F r numeric at_).map Entry.pair)])
        { config := c, lib := a, versioned := true } { config := c, lib := a', versioned := true } :=
      .routes (k := "routes") (by simp) rfl hrule
    have nv : name (ascii "wolfsentry-config-version") = ascii "wolfsentry-config-version" := by decide
    have nr : name (ascii "routes") = ascii "routes" := by decide
    exact Loads.mk (x := { config := c, lib := a', versioned := true })
      (.cons (by decide) (by rw [nv]; exact hv) (.cons (by decide) (by rw [nr]; exact hsec) (.nil _)))

/-- C57: nothing else is done: the calls to the library are that one insertion. -/
theorem C57_one_insertion_partial (F : FmtEnv) (E : Env α) (hb : ReadsBack F E) (hE : NoEmptyEvent E) (tail : Tail) (ht : InPlaceTail tail)
    (c : EventConfig) (ev0 : Option Event) (remote0 loc0 : SockAddr) (flags0 : Flags) (r0 r : Route)
    (hnew : routeNewForInsert ev0 remote0 loc0 flags0 = .ok r0) (hc : CreatedAs r0 r)
    (numeric : Bool) (at_ : List Byte → Nat → List Byte) (hr : Renderable F r numeric at_) (hrl : Reloadable F E r)
    (cap : Nat) (hcap : cap < 2147483648) (hfit : (ruleJson r at_ (familyText F r numeric) (protoText F r numeric)).length ≤ cap) :
    ∃ s rem loc, formatJson F r numeric cap = .ok s ∧
      (∀ ev, routeNewForInsert ev (sockAddrOf rem) (sockAddrOf loc) (givenFlags r.flags) = .ok (asCreated r ev)) ∧
      ∀ chunks : List (List Byte), chunks.flatten = configText s.text → ∀ a,
        (E.call a (.routeInsert rem loc (givenFlags r.flags) (labelOf r))).2 = none →
        (load (logged E) tail loaderConfig false c (a, []) chunks).user.1.2 = [.routeInsert rem loc (givenFlags r.flags) (labelOf r)] := by
  have hb' : ReadsBack F (logged E) := ⟨hb.ntop4, hb.ntop6, hb.family, hb.proto⟩
  have hE' : NoEmptyEvent (logged E) := fun a => hE a.1
  have hrl' : Reloadable F (logged E) r := ⟨hrl.label, hrl.family, hrl.tcp, hrl.remote, hrl.loc⟩
  obtain ⟨s, rem, loc, h1, h2, h3⟩ := C57_export_reloads_partial F (logged E) hb' hE' tail ht c ev0 remote0 loc0 flags0 r0 r hnew hc numeric at_ hr hrl'
    cap hcap hfit
  refine ⟨s, rem, loc, h1, h2, fun chunks hch a hcall => ?_⟩
  have := (h3 chunks hch (a, []) ((E.call a (.routeInsert rem loc (givenFlags r.flags) (labelOf r))).1, [.routeInsert rem loc (givenFlags r.flags) (labelOf r)])
    (by show (_, _) = (_, _); rw [hcall]; rfl)).2
  rw [this]

/-! ### Example -/

/-- Addresses written as hexadecimal digits: an invertible stand-in for `inet_ntop`. -/
def hexText (a : List Byte) : List Byte := a.flatMap Spec.hexByte

def hexVal (c : Byte) : Nat := (ascii "0123456789abcdef").idxOf c

def unHex : List Byte → List Byte
  | x :: y :: t => BitVec.ofNat 8 (hexVal x * 16 + hexVal y) :: unHex t
  | _ => []

theorem hexVal_hexCh {k : Nat} (h : k < 16) : hexVal (hexCh k) = k := by
  have : ∀ k : Fin 16, hexVal (hexCh k.val) = k.val := by decide
  exact this ⟨k, h⟩

theorem unHex_hexText : ∀ a : List Byte, unHex (hexText a) = a
  | [] => rfl
  | b :: a => by
    have hb := b.isLt
    have ih := unHex_hexText a
    show unHex (hexCh (b.toNat / 16) :: hexCh (b.toNat % 16) :: hexText a) = b :: a
    rw [unHex, ih, hexVal_hexCh (by omega), hexVal_hexCh (by omega)]
    have e : BitVec.ofNat 8 (b.toNat / 16 * 16 + b.toNat % 16) = b := by
      apply BitVec.eq_of_toNat_eq; rw [BitVec.toNat_ofNat]; omega
    rw [e]

def rtFmt : FmtEnv :=
  { formatter := fun _ => none, famName := fun _ => none, proto := fun n => if n = 6 then .found (ascii "tcp") else .unknown,
    ntop4 := hexText, ntop6 := hexText }

def rtEnv : Env Unit :=
  { yesEnv with
    pton4 := fun t => some (unHex t)
    pton6 := fun t => some (unHex t)
    protoByName := fun t => if t = ascii "tcp" then .found 6 else .unknown
    famMaxBits := fun f => if f = 29 then .ok 32 else .error .itemNotFound }

theorem hexText_plain (a : List Byte) : Plain (hexText a) :=
  plain_bytes fun b hb => by
    obtain ⟨c, _, hc⟩ := List.mem_flatMap.1 hb
    exact hexByte_plain c b hc

theorem hexText_length (a : List Byte) : (hexText a).length = 2 * a.length := by
  induction a with
  | nil => rfl
  | cons b a ih =>
    show (_ :: _ :: hexText a).length = _
    simp only [List.length_cons] at ih ⊢
    omega

theorem rt_readsBack : ReadsBack rtFmt rtEnv := by
  refine ⟨fun a h => ⟨hexText_plain a, ?_, ?_⟩, fun a h => ⟨hexText_plain a, ?_, ?_⟩, fun n nm h => ?_, fun n nm h => ?_⟩
  · show (hexText a).length < 16; rw [hexText_length]; omega
  · show some (unHex (hexText a)) = some a; rw [unHex_hexText]
  · show (hexText a).length < 64; rw [hexText_length]; omega
  · show some (unHex (hexText a)) = some a; rw [unHex_hexText]
  · cases h
  · have h : (if n = 6 then ProtoLookup.found (ascii "tcp") else .unknown) = .found nm := h
    split at h
    · rename_i h6
      injection h with h
      subst h
      subst h6
      exact ⟨plain_bytes (by decide), by decide, by show (if ascii "tcp" = ascii "tcp" then Lookup.found 6 else .unknown) = _; rw [if_pos rfl]⟩
    · cases h

/-- An incoming TCP rule with an event, from 10.0.0.0/8, for local port 443. -/
def rtEvent : Event := { label := ascii "web", priority := 1 }
def rtSa (e : Endpoint) : SockAddr := { family := 2, proto := 6, ep := e }
def rtFlags : Flags := bit 10 ||| bit 9 ||| bit 5 ||| bit 6 ||| bit 4 ||| bit 7
def rtRule : Route :=
  { id := 7, event := some rtEvent, flags := rtFlags ||| bit 14 ||| bit 20, family := 2, proto := 6, remote := { bits := 8, addr := [10#8] }, loc := { port := 443 } }

theorem rt_created : ∃ r0, routeNewForInsert (some rtEvent) (rtSa { bits := 8, addr := [10#8] }) (rtSa { port := 443 }) rtFlags = .ok r0 ∧
    CreatedAs r0 rtRule := by
  refine ⟨_, rfl, by decide, by decide, by decide, by decide, by decide⟩

theorem rt_renderable (numeric : Bool) : Renderable rtFmt rtRule numeric (fun a bits => hexText (padded 4 (a.take ((bits + 7) / 8)))) := by
  refine ⟨by unfold FieldsInRange; decide, Or.inr (Or.inr (Or.inr (by decide))), ?_⟩
  intro p hp
  have : p = ([10#8], 8) := by
    have h : renderedAddrs rtRule = [([10#8], 8)] := by decide
    rw [h] at hp; simpa using hp
  subst this
  refine ⟨?_, by decide⟩
  show (_ ∧ _) ∨ (_ ∧ _) ∨ _
  right; left
  exact ⟨rfl, by decide, rfl⟩

theorem rt_reloadable : Reloadable rtFmt rtEnv rtRule := by
  refine ⟨?_, by decide, by decide, ⟨by decide, fun _ => ⟨rfl, Or.inl ⟨rfl, by decide⟩⟩⟩, ⟨by decide, fun h => absurd h (by decide)⟩⟩
  intro e he
  have : e = rtEvent := by injection he with he; exact he.symm
  subst this
  exact ⟨plain_bytes (by decide), by decide⟩

theorem rt_noEmpty : NoEmptyEvent rtEnv := by
  rintro ⟨⟩
  simp [rtEnv, yesEnv]

/-- The rule of the example comes back, by number and by name. -/
example (numeric : Bool) : ∃ s rem loc, formatJson rtFmt rtRule numeric 1000 = .ok s ∧
    (∀ ev, routeNewForInsert ev (sockAddrOf rem) (sockAddrOf loc) (givenFlags rtRule.flags) = .ok (asCreated rtRule ev)) ∧
    ∀ chunks : List (List Byte), chunks.flatten = configText s.text → ∀ a,
      (rtEnv.call a (.routeInsert rem loc (givenFlags rtRule.flags) (labelOf rtRule))).2 = none →
      (load (logged rtEnv) plainTail loaderConfig false {} (a, []) chunks).user.1.2 = [.routeInsert rem loc (givenFlags rtRule.flags) (labelOf rtRule)] := by
  obtain ⟨r0, h1, h2⟩ := rt_created
  exact C57_one_insertion_partial rtFmt rtEnv rt_readsBack rt_noEmpty plainTail plainTail_inPlace {} _ _ _ _ r0 rtRule h1 h2 numeric _
    (rt_renderable numeric) rt_reloadable 1000 (by decide) (by cases numeric <;> decide +kernel)

/-- What comes back. -/
example : (asCreated rtRule (some rtEvent)).remote = { bits := 8, addr := [10#8] } ∧ (asCreated rtRule (some rtEvent)).loc = { port := 443 } ∧
    (asCreated rtRule (some rtEvent)).flags = rtFlags ||| bit 20 := by decide

/-! ### Findings: rules that do not come back -/

/-- Export in numbers, then load: whether it was accepted, and the calls made. -/
def reload (F : FmtEnv) (E : Env Unit) (r : Route) : Option (Bool × List Call) :=
  match formatJson F r true 4096 with
  | .ok s =>
    let l := load (logged E) plainTail loaderConfig false {} ((), []) [configText s.text]
    some (decide (0 ≤ l.ret), l.user.1.2)
  | _ => none

/-- C57, finding: the label of an event is written without escaping quotes.  A label can name another event in the export:
the rule comes back with the event `f` instead of its own. -/
theorem C57_finding_label_injection :
    (reload rtFmt rtEnv { rtRule with event := some { rtEvent with label := ascii "e\",\"parent-event\":\"f" } }).map
      (fun x => x.2.map fun c => match c with | .routeInsert _ _ _ l => l | _ => []) = some [ascii "f"] := by
  decide +kernel

/-- C57, finding: the export of a rule whose event label contains a quote may not be JSON at all. -/
theorem C57_finding_label_unreadable :
    reload rtFmt rtEnv { rtRule with event := some { rtEvent with label := ascii "a\"b" } } = some (false, []) := by
  decide +kernel

/-- C57, finding: an IPv6 rule with a mask is exported but cannot be loaded (the loader's socket address has room for 128
bits, load_config.c:836-846). -/
theorem C57_finding_ipv6_mask (E : Env Unit) (hm : E.famMaxBits 10 = .ok 128) (v : J) (x y : RouteUC) (hx : x.remote.family = 10) :
    ¬ EndpointMember E .remote (ascii "bitmask") v x y := by
  intro h
  generalize hk : ascii "bitmask" = k at h
  cases h with
  | port => exact absurd hk (by decide)
  | address => exact absurd hk (by decide)
  | bitmask h0 h1 h2 h3 =>
    have e : E.famMaxBits x.remote.family = _ := h1
    rw [hx, hm] at e
    injection e with e
    omega
  | prefixBits => exact absurd hk (by decide)
  | interface => exact absurd hk (by decide)

example : ∃ x : RouteUC, x.remote.family = 10 := ⟨{ remote := { family := 10 } }, rfl⟩

/-- C57, finding: a rule for TCP that is not marked as having TCP-like ports comes back marked, that is with other immutable
flags, hence as another rule. -/
theorem C57_finding_tcplike :
    (reload rtFmt rtEnv { rtRule with flags := rtRule.flags &&& ~~~bit 9 }).map
      (fun x => x.2.map fun c => match c with | .routeInsert _ _ f _ => f.getLsbD 9 | _ => false) = some [true] := by
  decide +kernel

/-- C57, finding: a rule for a local (UNIX) socket is exported with the name in it, but there is no parser for it. -/
theorem C57_finding_local_socket :
    reload rtFmt rtEnv { rtRule with family := 1, remote := { bits := 32, addr := ascii "/tmp" } } = some (false, []) := by
  decide +kernel

end WS.Props
