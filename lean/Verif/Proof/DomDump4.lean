import Verif.Proof.DomDump3
/-
Writing values, part 4: reading back what was written.
-/
namespace WS.Dom
open WS WS.Sax WS.Spec.Json WS.Spec.Dom WS.JNum WS.Props

/-! ### Number of values -/

theorem count_append (a b : List Event) : count (a ++ b) = count a + count b := by
  simp only [count, List.filter_append, List.length_append]

theorem count_cons (e : Event) (b : List Event) : count (e :: b) ≤ 1 + count b := by
  simp only [count, List.filter_cons]
  split
  · simp; omega
  · omega

theorem count_end (a : List Event) (e : Event) (h : e.type = .arrayEnd ∨ e.type = .objectEnd) : count (a ++ [e]) = count a := by
  rw [count_append]
  have : count [e] = 0 := by
    simp only [count, List.filter_cons, List.filter_nil]
    rcases h with h | h <;> simp [h]
  omega

mutual
theorem count_value {cfg : Config} : ∀ {d : Nat} {t : List Byte} {evs : List Event}, Value cfg d t evs → count evs ≤ t.length
  | _, _, _, .null => by decide
  | _, _, _, .false => by decide
  | _, _, _, .true => by decide
  | _, _, _, .number h _ => by
    refine Nat.le_trans (count_cons _ []) ?_
    obtain ⟨s, i, f, e, rfl, _, hi, _, _⟩ := h
    have : 1 ≤ i.length := by cases hi <;> simp
    simp only [List.length_append, count, List.filter_nil, List.length_nil]; omega
  | _, _, _, .string _ _ => by
    refine Nat.le_trans (count_cons _ []) ?_
    simp [count]
  | _, _, _, .emptyArray _ _ => by
    refine Nat.le_trans (count_cons _ _) ?_
    simp [count]
  | _, _, _, .emptyObject _ _ => by
    refine Nat.le_trans (count_cons _ _) ?_
    simp [count]
  | _, _, _, .array _ he => by
    have := count_elements he
    rw [List.cons_append]
    refine Nat.le_trans (count_cons _ _) ?_
    rw [count_end _ _ (Or.inl rfl)]
    simp only [List.cons_append, List.length_cons, List.length_append]; omega
  | _, _, _, .object _ he => by
    have := count_members he
    rw [List.cons_append]
    refine Nat.le_trans (count_cons _ _) ?_
    rw [count_end _ _ (Or.inr rfl)]
    simp only [List.cons_append, List.length_cons, List.length_append]; omega
theorem count_elements {cfg : Config} : ∀ {d : Nat} {t : List Byte} {evs : List Event}, Elements cfg d t evs → count evs ≤ t.length
  | _, _, _, .one _ hv _ => by
    have := count_value hv
    simp only [List.length_append]; omega
  | _, _, _, .more h0 _ hv _ => by
    have := count_value hv
    have := count_elements h0
    rw [count_append]
    simp only [List.length_append]; omega
theorem count_members {cfg : Config} : ∀ {d : Nat} {t : List Byte} {evs : List Event}, Members cfg d t evs → count evs ≤ t.length
  | _, _, _, .one hv => count_member hv
  | _, _, _, .more h0 hv => by
    have := count_member hv
    have := count_members h0
    rw [count_append]
    simp only [List.length_append]; omega
theorem count_member {cfg : Config} : ∀ {d : Nat} {t : List Byte} {evs : List Event}, Member cfg d t evs → count evs ≤ t.length
  | _, _, _, .mk _ _ _ _ _ hv _ => by
    have := count_value hv
    refine Nat.le_trans (count_cons _ _) ?_
    simp only [List.length_append, List.length_cons]; omega
end

/-! ### The whole text -/

/-- A write function that collects the bytes. -/
def collect : Write (List Byte) := fun u b => (u ++ b, 0)

theorem writeAll_collect : ∀ (ps : List (List Byte)) (u : List Byte), writeAll collect u ps = (u ++ ps.flatten, 0)
  | [], u => by simp [writeAll]
  | p :: ps, u => by
    have h : ¬ (collect u p).2 < 0 := by simp [collect]
    rw [writeAll, if_neg h, writeAll_collect ps]
    simp [collect]

theorem root_allowed {cfg : Config} (h : cfg.flags &&& 0x3f#32 = 0#32) (ty : JType) : ¬ rootForbidden cfg ty := by
  have key : ∀ i, i < 6 → cfg.flags.getLsbD i = false := by
    intro i hi
    have := congrArg (fun b => b.getLsbD i) h
    simp only [BitVec.getLsbD_and] at this
    have h2 : (0x3f#32 : BitVec 32).getLsbD i = true := by
      rcases i with _ | _ | _ | _ | _ | _ | i
      · decide
      · decide
      · decide
      · decide
      · decide
      · decide
      · omega
    rw [h2] at this
    simpa using this
  intro hf
  cases ty <;> simp only [rootForbidden] at hf
  · rw [key 0 (by decide)] at hf; cases hf
  · rw [key 1 (by decide)] at hf; cases hf
  · rw [key 1 (by decide)] at hf; cases hf
  · rw [key 2 (by decide)] at hf; cases hf
  · rw [key 3 (by decide)] at hf; cases hf
  · rw [key 4 (by decide)] at hf; cases hf
  · rw [key 5 (by decide)] at hf; cases hf

theorem dumpRoot_pieces {print : BitVec 64 → List Byte} {p : Params} {v : V} {t : T} (h : Writes print p v t) :
    ∃ ps, (∀ {σ : Type} (w : Write σ), Emits w (dumpRoot (dumpDouble print) w p v) ps) ∧
      ∀ cfg, Roomy cfg ps.flatten.length → Document cfg ps.flatten t.events := by
  obtain ⟨ws, text, ps, g1, g2, _, g3, g4⟩ := h true 0
  obtain ⟨nl, psn, n1, n2, n3⟩ := newline_out p
  have hfl : (ps ++ psn).flatten = ws ++ text ++ nl := by rw [List.flatten_append, g1, n1]
  refine ⟨ps ++ psn, fun w => emits_seq (g4 w) (n3 w), fun cfg hr => ?_⟩
  rw [hfl] at hr ⊢
  obtain ⟨r1, r2, r3, r4, r5, r6, r7⟩ := hr
  have hlen : text.length ≤ (ws ++ text ++ nl).length := by simp only [List.length_append]; omega
  have hv : Value cfg 0 text t.events := g3 cfg 0 ⟨within_le r3 hlen, within_le r4 hlen, within_le r5 hlen, within_le r6 (by omega)⟩
  exact ⟨⟨ws, text, nl, rfl, g2, n2, hv⟩, r1, within_le r2 (Nat.le_trans (count_value hv) hlen), fun e _ => root_allowed r7 _⟩

theorem collected {a : Wr (List Byte)} {ps : List (List Byte)} (h : Emits collect a ps) : (a []).1 = ps.flatten ∧ 0 ≤ (a []).2 := by
  obtain ⟨h1, _, h3⟩ := h []
  rw [writeAll_collect] at h1 h3
  exact ⟨by simpa using h1, h3 (by simp)⟩

theorem reread {print : BitVec 64 → List Byte} {conv : List Byte → BitVec 64} (p : Params) {v : V} (hw : Writable print conv v)
    (flags : BitVec 32) (cfg : Config) (hst : Strict cfg)
    (hr : Roomy cfg (dumpRoot (dumpDouble print) collect p v []).1.length)
    (chunks : List (List Byte)) (hc : chunks.flatten = (dumpRoot (dumpDouble print) collect p v []).1) :
    0 ≤ (dumpRoot (dumpDouble print) collect p v []).2 ∧ 0 ≤ (parse (toDouble conv) flags cfg chunks).1 ∧
    Same p.preferOrder (maintainOrder flags) v (parse (toDouble conv) flags cfg chunks).2 ∧
    ∃ t, Reads (toDouble conv) (dupKey flags) (maintainOrder flags) t (parse (toDouble conv) flags cfg chunks).2 := by
  obtain ⟨t, v', h1, h2, h3, h4⟩ := back_value (p := p) (pol := dupKey flags) (o := maintainOrder flags) v hw
  obtain ⟨ps, g1, g2⟩ := dumpRoot_pieces h1
  obtain ⟨e1, e2⟩ := collected (g1 collect)
  rw [e1] at hr hc
  have hd := g2 cfg hr
  rw [← hc] at hd
  obtain ⟨k1, k2⟩ := parse_complete_value (toDouble conv) flags cfg hst chunks (fun _ => h2) hd h3
  exact ⟨e2, k1, by rw [k2]; exact h4, t, by rw [k2]; exact h3⟩

end WS.Dom
