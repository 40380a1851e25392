import Verif.Proof.LockBal
/-
C33: every API call gives back exactly the locks it took.
The full property fails on error paths of the functions listed in `leaky` and `overReleasing`
(theorems `C33_finding_*`); what is proved for all others carries the suffix `_partial`.
-/
namespace WS.Props
open WS.LockBal

/-- **C33.** Whatever its arguments, whatever fails inside and however it ends, a call of any API
function other than the ones listed leaves both contexts locked exactly as many times as before, and
never releases a level that is not held. -/
theorem C33_balanced_partial (f : String × Cmd) (hf : f ∈ api) (h1 : f.1 ∉ leaky)
    (h2 : f.1 ∉ overReleasing) (l : Lk) : neutral l f.2 := by
  have key : ∀ f ∈ api, f.1 ∉ leaky → f.1 ∉ overReleasing →
      chkNeutral .own f.2 = true ∧ chkNeutral .other f.2 = true := by decide +kernel
  have := key f hf h1 h2
  cases l
  · exact chkNeutral_sound this.1
  · exact chkNeutral_sound this.2

/-- **C33.** A call that succeeds is balanced, for every function of the list without exception. -/
theorem C33_success_balanced (f : String × Cmd) (hf : f ∈ api) (l : Lk) : neutralOnSuccess l f.2 := by
  have key : ∀ f ∈ api, chkAdds .own f.2 0 = true ∧ chkAdds .other f.2 0 = true := by decide +kernel
  have := key f hf
  intro tr o r ho n
  cases l
  · exact chkAdds_sound this.1 tr o r ho n
  · exact chkAdds_sound this.2 tr o r ho n

/-- **C33.** Any session of calls of the balanced functions — any length, any order, any mix of
successes and failures — leaves the thread with the locks it began with. -/
theorem C33_session_partial (l : Lk) {tr : List Ev}
    (s : Session ((api.filter (fun f => f.1 ∉ leaky ∧ f.1 ∉ overReleasing)).map (·.2)) tr) (n : Nat) :
    replay l tr n = some n := by
  refine session_neutral ?_ s n
  intro f hf
  obtain ⟨g, hg, rfl⟩ := List.mem_map.1 hf
  have := List.mem_filter.1 hg
  have h2 := of_decide_eq_true this.2
  exact C33_balanced_partial g this.1 h2.1 h2.2 l

/-- **C33, finding.** Each function in `leaky` has a failing run that returns with a lock still held:
action_list_insert_after when dropping the anchor reference fails (actions.c:427-428),
action_list_clone on reference overflow (the destination's lock, actions.c:473), event_get_config and
event_update_config on an unknown label (events.c:351, 366), event_set_aux_event on an unknown label
(events.c:621), dispatch by id / by route on an unknown event label (routes.c:2877, 2945), lwIP
ICMP/TCP callback installation when the cleanup cannot be pushed (packet_filter_glue.c:1239, 1281). -/
theorem C33_finding_leaks (name : String) (h : name ∈ leaky) :
    ∃ f ∈ api, f.1 = name ∧ ∃ l, canLeak l f.2 := by
  have key : ∀ name ∈ leaky, ∃ f ∈ api, f.1 = name ∧
      (chkLeak .own f.2 = true ∨ chkLeak .other f.2 = true) := by decide +kernel
  obtain ⟨f, hf, hn, hl⟩ := key name h
  refine ⟨f, hf, hn, ?_⟩
  rcases hl with hl | hl
  · exact ⟨.own, chkLeak_sound hl⟩
  · exact ⟨.other, chkLeak_sound hl⟩

/-- **C33, finding.** Each function in `overReleasing` has a failing run that releases a lock it did
not take: event_action_list_start on a bad selector (events.c:700), user_value_get_string/_bytes/_json
with an over-long key (kv.c:321), addr_family_handler_install with an over-long name, on allocation
failure or when the lock is refused (addr_families.c:110-146, 183). -/
theorem C33_finding_over_release (name : String) (h : name ∈ overReleasing) :
    ∃ f ∈ api, f.1 = name ∧ canOverRelease .own f.2 := by
  have key : ∀ name ∈ overReleasing, ∃ f ∈ api, f.1 = name ∧ chkOver .own f.2 = true := by
    decide +kernel
  obtain ⟨f, hf, hn, hl⟩ := key name h
  exact ⟨f, hf, hn, chkOver_sound hl⟩

/-- **C33.** A successful clone gives the new context back locked once and leaves the source as it
was. -/
theorem C33_clone_contract : adds .own contextClone 0 ∧ adds .other contextClone 1 :=
  ⟨chkAdds_sound (by decide +kernel), chkAdds_sound (by decide +kernel)⟩

/-- **C33.** Opening a configuration load keeps exactly one level on success; closing it gives
exactly that one back, whether or not the load succeeds; so a load that was opened leaves the thread
with the locks it began with. -/
theorem C33_json_contract :
    adds .own jsonInit 1 ∧
    (∀ tr o, Run jsonFiniOpen tr o → ∀ n, replay .own tr (n + 1) = some n) ∧
    (∀ tr o tr' o', Run jsonInit tr o → o ≠ .ret false → Run jsonFiniOpen tr' o' →
      ∀ n, replay .own (tr ++ tr') n = some n) := by
  have hi : adds .own jsonInit 1 := chkAdds_sound (by decide +kernel)
  have hf : ∀ tr o, Run jsonFiniOpen tr o → ∀ n, replay .own tr (n + 1) = some n := by
    intro tr o r n
    have h : ∃ x, outs .own jsonFiniOpen (some 1) = some x ∧ ∀ p ∈ x, p.2 = some 0 :=
      ⟨[(.ret true, some 0), (.ret false, some 0)], by decide +kernel, by decide⟩
    obtain ⟨x, hx, hp⟩ := h
    obtain ⟨e', h1, h2⟩ := outs_sound .own r hx
    obtain ⟨d, h3, h4⟩ := h2 0 (hp _ h1)
    simp at h3; subst h3
    exact h4 n
  refine ⟨hi, hf, ?_⟩
  intro tr o tr' o' r ho r' n
  rw [LockBal.replay_append, hi tr o r ho n]
  exact hf tr' o' r' n

/-- **C33.** Swapping two contexts releases both. -/
theorem C33_exchange : neutral .own contextExchange ∧ neutral .other contextExchange :=
  ⟨chkNeutral_sound (by decide +kernel), chkNeutral_sound (by decide +kernel)⟩

/-- **C33, finding.** Opening a load can fail with the lock held (load_config.c:1825-1826: the error
of `wolfsentry_defaultconfig_get` is returned directly instead of through the common exit). -/
theorem C33_finding_json_init : canLeak .own jsonInit := chkLeak_sound (by decide +kernel)

/-- **C33, finding.** `wolfsentry_context_free` answered BUSY releases the caller's lock
(wolfsentry_util.c:3811-3815); `wolfsentry_shutdown`, which then releases again
(wolfsentry_util.c:3845-3848), so releases a lock nobody holds; and when freeing fails otherwise it
returns with the lock held. -/
theorem C33_finding_shutdown :
    canOverRelease .own (contextFree .own) ∧ canOverRelease .own (shutdown .own) ∧
    canLeak .own (shutdown .own) :=
  ⟨chkOver_sound (by decide +kernel), chkOver_sound (by decide +kernel), chkLeak_sound (by decide +kernel)⟩

/-- **C33, finding.** A failed clone can leave the other context's lock held (the half-built context
is not freed when `wolfsentry_context_free` fails). -/
theorem C33_finding_clone : canLeak .other contextClone := chkLeak_sound (by decide +kernel)

/-! ### The statements are about something -/

/-- Insertions that lock, fail inside, and unlock. -/
example : Run (actionInsert .own) [.acq .own, .rel .own] (.ret false) := by
  have : Run (actionInsert1 .own) [.acq .own, .rel .own] (.ret false) :=
    .seqFall (t := [.acq .own]) (u := [.rel .own]) (.granted .skip)
      (.seqRet (.seqFall (t := [.rel .own]) (u := []) .rel (.seqRet (.altR .ret))))
  exact .seqFall (t := []) (.altL .skip) (.seqRet (.callErr (u := []) this .ret))

example : (api.filter (fun f => f.1 ∉ leaky ∧ f.1 ∉ overReleasing)).length = 86 ∧ leaky.length = 13 ∧
    overReleasing.length = 5 := by decide +kernel

/-- Forgetting one unlock is noticed. -/
example : ¬ neutral .own (block [lockOrRet .own, mayFail, unlockOk .own]) := by
  intro h
  have := h [.acq .own] (.ret false)
    (.seqFall (t := [.acq .own]) (u := []) (.granted .skip) (.seqRet (.altR .ret))) 0
  simp [replay] at this

end WS.Props
