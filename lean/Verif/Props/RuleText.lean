import Verif.Proof.RuleText
/-
C78: rules written as lines of text.
-/
namespace WS.Props
open WS WS.Spec WS.Txt WS.Spec.Txt

/-! ### A sample -/

def txtEnv : Env where
  formatter := fun _ => none
  famName := fun f => if f = 2 then some (ascii "inet") else none
  famRef := fun _ => true
  proto := fun p => if p = 6 then .found (ascii "tcp") else .unknown
  ntop4 := fun _ => ascii "10.1.0.0"
  ntop6 := fun _ => ascii "::"

/-- 10.1.0.0/16, port 80, interface 3, to any local address and port; incoming, TCP. -/
def txtRule : Route := { id := 7, event := some { label := ascii "ev" }, flags := bit 3 ||| bit 4 ||| bit 7 ||| bit 9 ||| bit 10, family := 2, proto := 6,
                         remote := { port := 80, bits := 16, iface := 3, addr := [10, 1] } }

theorem txtRule_renders : Renders txtEnv txtRule (ascii "10.1.0.0/16") (ascii "*") where
  wf := by decide
  ntop4 := fun _ => by show (ascii "10.1.0.0").length ≤ 255; decide
  ntop6 := fun _ => by show (ascii "::").length ≤ 255; decide
  remote := by
    unfold EndAddrIs
    rw [if_neg (by decide), if_neg (by decide)]
    exact Or.inr (Or.inl ⟨rfl, by decide, by decide +kernel⟩)
  loc := by unfold EndAddrIs; rw [if_pos (by decide)]
  rmask := fun _ h => absurd h (by decide)
  lmask := fun h _ => absurd h (by decide)
  label := fun e he => by cases he; decide
  flags := by decide

/-! ### The text -/

/-- C78 (complete rules, to standard output or without wildcard addresses): when the output works, the line of the rule is what appears on the
caller's stream, and the call succeeds.  Missing from the full statement: bit-matching rules of the IP and local families, flags without a name,
wildcard addresses on other streams; the code does something else there (below). -/
theorem C78_line_partial (E : Env) (r : Route) (ra la : List Byte) (h : Renders E r ra la) (works : Nat → Bool) (hw : ∀ k, works k = true)
    (exports : Bool) :
    ∃ w, render E works r exports = .ok w ∧
      textOn onFIsOut w.log = line E r ra la (Spec.Txt.protoText E r) exports ∧
      (r.flags.getLsbD 1 = false → r.flags.getLsbD 4 = false →
        textOn onF w.log = line E r ra la (Spec.Txt.protoText E r) exports) := by
  have a := before_ops (here := onFIsOut) rfl h exports (fun _ => rfl)
  have b := behind_ops (here := onFIsOut) rfl h exports
  obtain ⟨w, h1, h2⟩ := run_works works hw (lineOps E r exports) {} (by
    rw [line_split, proto_ops]
    intro o ho
    rcases List.mem_append.1 ho with ho | ho
    · have := a.1 o ho
      cases o <;> first | trivial | exact this
    · rcases List.mem_append.1 ho with ho | ho
      · rw [List.mem_singleton.1 ho]; trivial
      · have := (b.1 o ho).1
        cases o <;> first | trivial | exact this)
  have key : ∀ here : Stream → Bool, here .f = true → (r.flags.getLsbD 1 = true ∨ r.flags.getLsbD 4 = true → here .out = true) →
      textOn here w.log = line E r ra la (Spec.Txt.protoText E r) exports := by
    intro here hf hout
    have a := before_ops hf h exports hout
    have b := behind_ops hf h exports
    rw [h2]
    show T here (lineOps E r exports) = _
    rw [line_split, proto_ops, T_append, T_append, a.2, b.2, line_parts]
    congr 2
    exact textOn_one here .f _ hf
  refine ⟨w, h1, key onFIsOut rfl (fun _ => rfl), fun q1 q2 => key onF rfl (fun q => ?_)⟩
  rw [q1, q2] at q; simp at q

example : line txtEnv txtRule (ascii "10.1.0.0/16") (ascii "*") (Spec.Txt.protoText txtEnv txtRule) false =
    ascii "10.1.0.0/16%3:80 -> *:*, AF = inet, proto = tcp, ev = \"ev\", flags={*LP,*LA,*LI,Tcplike,In}, id=7\n" := by decide +kernel

/-- C78 (under the same conditions): whatever output calls fail, the call reports either success or an output error.  After a success the line is
there, at worst without the protocol; after an error a beginning of it is. -/
theorem C78_failing_output_partial (E : Env) (r : Route) (ra la : List Byte) (h : Renders E r ra la) (works : Nat → Bool) (exports : Bool) :
    (∃ w proto, render E works r exports = .ok w ∧ (proto = Spec.Txt.protoText E r ∨ proto = []) ∧
      textOn onFIsOut w.log = line E r ra la proto exports) ∨
    (∃ w proto, render E works r exports = .io w ∧ (proto = Spec.Txt.protoText E r ∨ proto = []) ∧
      textOn onFIsOut w.log <+: line E r ra la proto exports) := by
  obtain ⟨a1, a2⟩ := before_ops (here := onFIsOut) rfl h exports (fun _ => rfl)
  obtain ⟨b1, b2⟩ := behind_ops (here := onFIsOut) rfl h exports
  unfold render
  rw [line_split, proto_ops, run_append]
  rcases run_loud works (beforeProto E r exports) {} a1 with ⟨w1, g1, g2⟩ | ⟨w1, p, g1, g2, g3⟩
  · rw [g1]
    dsimp only
    have e1 : textOn onFIsOut w1.log = lineStart E r ra la := by rw [g2]; exact a2
    rw [run_append, run, run]
    dsimp only
    have e2 : ∃ proto, (proto = Spec.Txt.protoText E r ∨ proto = []) ∧
        textOn onFIsOut (w1.call works .f (Spec.Txt.protoText E r)).log = lineStart E r ra la ++ proto := by
      unfold W.call
      dsimp only
      split
      · exact ⟨_, Or.inl rfl, by rw [textOn_append, e1, textOn_one _ _ _ rfl]⟩
      · exact ⟨_, Or.inr rfl, by rw [e1, List.append_nil]⟩
    obtain ⟨proto, hp, e2⟩ := e2
    generalize w1.call works .f (Spec.Txt.protoText E r) = w2 at e2
    rcases run_loud works (behindProto r exports) w2 (fun o ho => (b1 o ho).1) with ⟨w3, k1, k2⟩ | ⟨w3, p, k1, k2, k3⟩
    · refine Or.inl ⟨w3, proto, k1, hp, ?_⟩
      rw [k2, textOn_append, e2, line_parts, List.append_assoc]
      congr 2
    · refine Or.inr ⟨w3, proto, k1, hp, ?_⟩
      rw [k3, textOn_append, e2, line_parts, ← List.append_assoc]
      refine (List.prefix_append_right_inj _).2 ?_
      have := textOn_prefix onFIsOut k2
      rwa [show textOn onFIsOut (entries (behindProto r exports)) = lineRest r exports from b2] at this
  · rw [g1]
    refine Or.inr ⟨w1, Spec.Txt.protoText E r, rfl, Or.inl rfl, ?_⟩
    rw [g3, line_parts]
    have := textOn_prefix onFIsOut g2
    rw [show textOn onFIsOut (entries (beforeProto E r exports)) = lineStart E r ra la from a2] at this
    exact this.trans (List.prefix_append _ _)

example : ∃ w, render txtEnv (fun k => decide (k < 3)) txtRule false = .io w ∧ textOn onFIsOut w.log = ascii "10.1.0.0/16%3:80" :=
  ⟨_, rfl, by decide +kernel⟩

/-- C78: writing a rule, whatever it is, leaves the reference count of its address family as it was, however the call ends. -/
theorem C78_references (E : Env) (r : Route) (works : Nat → Bool) : (render E works r false).world.refs = 0 := by
  rcases line_keeps E works r {} with h | h
  · unfold render; rw [h]; rfl
  · exact h

example : ∃ w, render txtEnv (fun k => decide (k ≠ 6)) txtRule false = .io w ∧ w.refs = 0 := ⟨_, rfl, rfl⟩

/-- C78, finding: the star for a wildcard address goes to standard output.  A rule with a wildcard address written to a file has nothing there in
its place. -/
theorem C78_wildcard_goes_to_stdout (E : Env) (r : Route) (works : Nat → Bool) (hw : ∀ k, works k = true) (ra la : List Byte) (h : Renders E r ra la)
    (exports : Bool) (h1 : r.flags.getLsbD 1 = true) :
    ∃ w rest, render E works r exports = .ok w ∧ w.log = (.out, ascii "*") :: rest := by
  have a := before_ops (here := onFIsOut) rfl h exports (fun _ => rfl)
  have b := behind_ops (here := onFIsOut) rfl h exports
  obtain ⟨w, g1, g2⟩ := run_works works hw (lineOps E r exports) {} (by
    rw [line_split, proto_ops]
    intro o ho
    rcases List.mem_append.1 ho with ho | ho
    · have := a.1 o ho
      cases o <;> first | trivial | exact this
    · rcases List.mem_append.1 ho with ho | ho
      · rw [List.mem_singleton.1 ho]; trivial
      · have := (b.1 o ho).1
        cases o <;> first | trivial | exact this)
  have hh : r.flags.has RF.SA_REMOTE_ADDR_WILDCARD = true := by
    show r.flags.has (bit 1) = true
    rw [Txt.has_bit _ (by decide)]; exact h1
  refine ⟨w, (entries (lineOps E r exports)).tail, g1, ?_⟩
  rw [g2]
  unfold lineOps Txt.endpointOps
  rw [if_pos hh]
  rfl

example : textOn onF (render txtEnv (fun _ => true) txtRule false).world.log =
    ascii "10.1.0.0/16%3:80 -> :*, AF = inet, proto = tcp, ev = \"ev\", flags={*LP,*LA,*LI,Tcplike,In}, id=7\n" := by decide +kernel

/-- C78, finding: IPv4 and IPv6 rules that match by address and mask cannot be written (for IPv4 any, for IPv6 when address and mask have more than
eight bytes): the length taken for the address is that of address and mask together. -/
theorem C78_bitmask_rules_fail (E : Env) (r : Route) (works : Nat → Bool) (exports : Bool) (hfm : E.formatter r.family = none)
    (h1 : r.flags.getLsbD 1 = false) (h12 : r.flags.getLsbD 12 = true)
    (hfam : (r.family = 2 ∧ 4 < (r.remote.bits + 7) / 8) ∨ (r.family = 10 ∧ 16 < (r.remote.bits + 7) / 8)) :
    render E works r exports = .fail .bufferTooSmall {} := by
  have hh : r.flags.has RF.SA_REMOTE_ADDR_WILDCARD = false := by
    show r.flags.has (bit 1) = false
    rw [Txt.has_bit _ (by decide)]; exact h1
  have hb : r.flags.has RF.REMOTE_ADDR_BITMASK = true := by
    show r.flags.has (bit 12) = true
    rw [Txt.has_bit _ (by decide)]; exact h12
  have hbytes : bitsToBytes r.remote.bits = (r.remote.bits + 7) / 8 := by unfold bitsToBytes; rw [Nat.shiftRight_eq_div_pow]
  have hops : addressOps E r.family (r.remote.bits >>> 1) r.remote.addr (bitsToBytes r.remote.bits) = [.stop .bufferTooSmall] := by
    unfold addressOps
    rw [hfm, hbytes]
    dsimp only
    rcases hfam with ⟨hf, hl⟩ | ⟨hf, hl⟩
    · rw [hf, if_neg (by decide), if_pos rfl, if_pos (by omega)]
    · rw [hf, if_neg (by decide), if_neg (by decide), if_pos rfl, if_pos (by omega)]
  unfold render lineOps Txt.endpointOps
  rw [if_neg (by rw [hh]; simp), if_pos hb, hops]
  rfl

/-- 10.0.0.0 with mask 255.0.0.255. -/
def txtMask : Route := { txtRule with flags := bit 4 ||| bit 12, remote := { port := 80, bits := 64, addr := [10, 0, 0, 0, 255, 0, 0, 255] } }

example : txtMask.WF ∧ render txtEnv (fun _ => true) txtMask false = .fail .bufferTooSmall {} := by decide +kernel

/-- C78, finding: when writing the protocol fails the call reports success all the same. -/
theorem C78_lost_error : ∃ (works : Nat → Bool) (w : W), render txtEnv works txtRule false = .ok w ∧ works 7 = false ∧
    textOn onFIsOut w.log = ascii "10.1.0.0/16%3:80 -> *:*, AF = inet, ev = \"ev\", flags={*LP,*LA,*LI,Tcplike,In}, id=7\n" :=
  ⟨fun k => decide (k ≠ 7), _, rfl, rfl, by decide +kernel⟩

/-- C78, finding: writing an export that fails in the name of the family leaves a reference to the family taken: it can never be deleted. -/
theorem C78_exports_leak : ∃ (works : Nat → Bool) (w : W), render txtEnv works txtRule true = .io w ∧ w.refs = 1 :=
  ⟨fun k => decide (k ≠ 6), _, rfl, rfl⟩

/-- C78, finding: a flag without a name is written to standard error, its comma to the caller's stream. -/
theorem C78_unnamed_flags : ∃ w : W, run (fun _ => true) (flagsOps (bit 10 ||| bit 18)) {} = .ok w ∧ textOn onF w.log = ascii "{In,}" ∧
    (.err, ascii "unk-0x40000") ∈ w.log := ⟨_, rfl, by decide +kernel, by decide +kernel⟩

end WS.Props
