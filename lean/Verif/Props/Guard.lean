import Verif.Lemmas.Guard

/-!
# C91 — What is deferred is done exactly once, when its scope ends, however it ends

`Fn->defer` and `Scope::Guard`.  Every guard is called exactly once: by the end of the method call that it was made in, and by the end of
the block or eval block that it was made in, whether the end is reached, jumped to by an exception or by `return`; and with guards a
program has the same exceptions, the same `$@` and the same `eval_error_id` as without them, whatever the callbacks do.
-/

namespace SPVM.Guard

open SPVM.Except (Meth deepMsg)

/-- A method call: each guard made during it, in the method, in what it calls and in callbacks, is called exactly once before the call is
over.  Partial: the calls of the callbacks must fit into the 1000 levels of calls (see `deep_guard_violated`). -/
theorem call_guards_once_partial (m m' : Meth) (depth : Nat) (body : Code) (line : Int) (f : Fr) (r : Flow × Fr)
    (hd : depth + 1 + reach body ≤ 1000)
    (h : exec m depth (.call m' body line) f = .ok r) : EachOnce f.sh r.2.sh := by
  obtain ⟨x, h1, h2⟩ := bind_ok h
  obtain ⟨y, h3, h4⟩ := bind_ok h2
  cases h4
  rw [eachOnce_iff]
  have a : Step [] [] f.sh x.2 := by
    refine callAt_step (by omega) ?_ h1
    intro r hr
    refine asMethod_step ?_ hr
    intro r hr
    have := exec_step body m' (depth + 1) ⟨f.sh, 0, []⟩ r hd (fun g hg => by cases hg) hr
    exact ⟨this.2.1, this.2.2⟩
  exact a.trans (onExc_step h3 [])

/-- A block whose end is reached: the guards made in it have been called, once each, before what follows the block; those made
before it are still waiting. -/
theorem block_guards_once_partial (m : Meth) (depth : Nat) (pre body : Code) (s : Sh) (p : Flow × Fr) (r : Flow × Fr)
    (hd : depth + max (reach pre) (reach body) ≤ 1000)
    (hp : exec m depth pre ⟨s, 0, []⟩ = .ok p) (h : exec m depth (.block body) p.2 = .ok r) (hn : r.1 = .next) :
    EachOnce p.2.sh r.2.sh ∧ r.2.mortal = p.2.mortal := by
  have fp := (exec_step pre m depth ⟨s, 0, []⟩ p (by omega) (fun g hg => by cases hg) hp).2.1
  obtain ⟨⟨more, hm⟩, _, hs⟩ := exec_step (.block body) m depth p.2 r (by unfold reach; omega) fp h
  have : r.2.mortal = p.2.mortal := by
    obtain ⟨x, h1, h2⟩ := bind_ok h
    split at h2
    · obtain ⟨f', h3, h4⟩ := bind_ok h2
      cases h4
      obtain ⟨⟨mb, eb⟩, fb, _⟩ := exec_step body m depth p.2 x (by omega) fp h1
      exact (leaveScope_step eb fb h3).1
    · rename_i hx
      cases h2
      exact absurd hn hx
  refine ⟨?_, this⟩
  rw [this] at hs
  obtain ⟨n, l, e, c⟩ := hs
  refine ⟨n, l, e, fun k => ?_⟩
  have := c k
  omega

/-- An eval block, whether an exception is caught or not: the guards made in it have been called, once each, before what follows it;
only `return` goes further. -/
theorem eval_guards_once_partial (m : Meth) (depth : Nat) (pre body : Code) (s : Sh) (p : Flow × Fr) (r : Flow × Fr)
    (hd : depth + max (reach pre) (reach body) ≤ 1000)
    (hp : exec m depth pre ⟨s, 0, []⟩ = .ok p) (h : exec m depth (.evalB body) p.2 = .ok r) (hn : r.1 ≠ .ret) :
    r.1 = .next ∧ EachOnce p.2.sh r.2.sh ∧ r.2.mortal = p.2.mortal := by
  have fp := (exec_step pre m depth ⟨s, 0, []⟩ p (by omega) (fun g hg => by cases hg) hp).2.1
  obtain ⟨_, _, hs⟩ := exec_step (.evalB body) m depth p.2 r (by unfold reach; omega) fp h
  have : r.1 = .next ∧ r.2.mortal = p.2.mortal := by
    obtain ⟨x, h1, h2⟩ := bind_ok h
    obtain ⟨⟨mb, eb⟩, fb, _⟩ := exec_step body m depth { p.2 with sh := { p.2.sh with exc := none }, evalErr := 0 } x (by omega) fp h1
    split at h2
    · rename_i hx
      cases h2
      exact absurd hx hn
    · obtain ⟨f', h3, h4⟩ := bind_ok h2
      cases h4
      exact ⟨rfl, (leaveScope_step eb fb h3).1⟩
    · rename_i id hx
      obtain ⟨f', h3, h4⟩ := bind_ok h2
      cases h4
      exact ⟨rfl, (leaveScope_step (f := { x.2 with evalErr := id }) eb fb h3).1⟩
  refine ⟨this.1, ?_, this.2⟩
  rw [this.2] at hs
  obtain ⟨n, l, e, c⟩ := hs
  refine ⟨n, l, e, fun k => ?_⟩
  have := c k
  omega

/-- Guards disturb nothing: a program ends in the same way, with the same `$@` and the same `eval_error_id`, as the program without its
guards, whatever the callbacks do: exceptions in callbacks, eval blocks in callbacks, guards in callbacks. -/
theorem guards_do_not_disturb (m : Meth) (depth : Nat) (c : Code) (s : Sh) (r : Flow × Fr)
    (h : exec m depth c ⟨s, 0, []⟩ = .ok r) :
    ∃ g, exec m depth (unguarded c) ⟨s, 0, []⟩ = .ok (r.1, g) ∧ g.sh.exc = r.2.sh.exc ∧ g.evalErr = r.2.evalErr := by
  obtain ⟨_, g, h1, h2⟩ := exec_like c m depth ⟨s, 0, []⟩ ⟨s, 0, []⟩ r (fun g hg => by cases hg) ⟨rfl, rfl, rfl⟩ h
  exact ⟨g, h1, h2.1, h2.2.1⟩

/-- A callback that throws: its message, with the lines of the callback and of the destructor added, is printed as a warning, and the
program goes on. -/
theorem callback_dies (m mc : Meth) (depth : Nat) (id line : Int) (msg e1 e2 : Except.Msg) (s : Sh) (hd : depth + 2 ≤ 1000) (hid : id ≠ 0)
    (h1 : Except.stackTrace (depth + 2) (some msg) mc line = .ok (some e1))
    (h2 : Except.stackTrace (depth + 1) (some e1) destroyM 23 = .ok (some e2)) :
    exec m depth (.block (.defer mc (.die id (some msg) line))) ⟨s, 0, []⟩ =
      .ok (.next, ⟨{ s with next := s.next + 1, log := s.log ++ [.reg s.next] ++ [.run s.next] ++ [.warn e2] }, 0, []⟩) := by
  simp only [exec, Out.ok_bind, leaveScope, List.length_nil, List.drop_zero, List.nil_append, leave, runGuard, callAt,
    destroy, asMethod, onExc, hid, if_neg (show ¬ depth + 1 > 1000 by omega), if_neg (show ¬ depth + 1 + 1 > 1000 by omega), if_false, if_true,
    h1, h2, Flow.err, warnOn, List.take_zero]

/-! ## Witnesses -/

def mA : Meth := ⟨"A".toList, "f".toList, "A.spvm".toList⟩
def s0 : Sh := ⟨none, 0, []⟩

/-- Non-vacuity: an exception goes through two blocks with a guard each, one of which throws; the eval block's `$@` is that of the
program. The guards have run before it is read. -/
example : (exec mA 1 (.evalB (.seq (.defer mA (.emit 1)) (.block (.seq (.defer mA (.emit 2)) (.die 1 (some ['x']) 7))))) ⟨s0, 0, []⟩ >>= fun r =>
    exec mA 1 .look r.2 >>= fun r => .ok (r.2.sh.log.map fun | .saw e i => Ev.saw (e.map (List.take 1)) i | e => e)) =
    .ok [.reg 0, .reg 1, .run 0, .emit 1, .run 1, .emit 2, .saw (some ['x']) 1] := by decide +kernel
example : 1 + reach (.evalB (.seq (.defer mA (.emit 1)) (.block (.seq (.defer mA (.emit 2)) (.die 1 (some ['x']) 7))))) ≤ 1000 := by decide

/-- The order in which the guards of nested blocks are called depends on how the blocks are left: the inner one is first if the end of
the inner block is reached, the outer one is first if an exception or a `return` is under way. -/
theorem order_of_guards_violated :
    (exec mA 1 (.evalB (.seq (.defer mA (.emit 1)) (.block (.defer mA (.emit 2))))) ⟨s0, 0, []⟩ >>= fun r => .ok r.2.sh.log) =
      .ok [.reg 0, .reg 1, .run 1, .emit 2, .run 0, .emit 1] ∧
    (exec mA 1 (.evalB (.seq (.defer mA (.emit 1)) (.block (.seq (.defer mA (.emit 2)) (.die 1 (some ['x']) 7))))) ⟨s0, 0, []⟩ >>= fun r =>
      .ok r.2.sh.log) = .ok [.reg 0, .reg 1, .run 0, .emit 1, .run 1, .emit 2] := by
  constructor <;> decide +kernel

/-- In a method that runs at the deepest level but one a guard's callback is not called at all; there is only a warning. -/
theorem deep_guard_violated :
    (exec mA 999 (.block (.defer mA (.emit 1))) ⟨s0, 0, []⟩ >>= fun r =>
      .ok (r.2.sh.log.map fun | .warn _ => Ev.warn [] | e => e)) = .ok [.reg 0, .warn []] := by decide +kernel

end SPVM.Guard
