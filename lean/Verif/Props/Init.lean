import Verif.Lemmas.Init
/-!
# C81: INIT methods
-/
namespace SPVM.Init
open Spec.Init

variable {σ : Type}

/-- **C81** (`call_init_methods`): the `INIT` blocks of the classes run one class after the other, in the order in which the
classes are visited, and an exception ends the initialization with this exception.  The order does not depend on what the
blocks do. -/
theorem init_runs (P : List (Cls σ)) (hP : ParentsExist P) (hn : P.length ≤ 999) :
    ∃ order, Visits (deps P) [] (initTypes P) order ∧ (∀ other, Visits (deps P) [] (initTypes P) other → other = order) ∧
      ∀ env, ((callInitMethods P (start env)).1, (callInitMethods P (start env)).2.env) = runAll P order env := by
  obtain ⟨o, v⟩ := visits_exist (closed hP) _ [] (Nat.le_refl _) (initTypes P)
    (fun d h => List.mem_range.1 (List.mem_filter.1 h).1)
  refine ⟨o, v, fun o' v' => visits_unique v' v, fun env => ?_⟩
  obtain ⟨o', v', p⟩ := initAll_spec (closed hP) hn [] (start env) (by simp [start])
  obtain rfl := visits_unique v' v
  rw [p.out, p.env]
  rfl

/-- **C81** (the order): every type with an `INIT` method comes exactly once and no others come; the parent class and the used
classes of a class come before it, except those that themselves need the class. -/
theorem init_order (P : List (Cls σ)) (hP : ParentsExist P) {order : List Nat}
    (h : Visits (deps P) [] (initTypes P) order) :
    order.Nodup ∧ (∀ c, c ∈ order ↔ ∃ k, P[c]? = some k ∧ k.kind ≠ .builtin) ∧
    ∀ before c after, order = before ++ c :: after → ∀ d ∈ deps P c, d ∈ before ∨ Needs (deps P) d c := by
  refine ⟨(visits_fresh h).1, ?_, ?_⟩
  · intro c
    constructor
    · intro hc
      rcases visits_reach h c hc with h | ⟨d, _, h⟩
      · exact of_decide_eq_true (List.mem_filter.1 h).2
      · have : ∀ a b, Needs (deps P) a b → ∃ k, P[b]? = some k ∧ k.kind = .class := by
          intro a b h
          induction h with
          | direct h => exact closed_of hP _ _ h
          | through _ _ ih => exact ih
        obtain ⟨k, hk, hc⟩ := this d c h
        exact ⟨k, hk, by rw [hc]; decide⟩
    · rintro ⟨k, hk, hc⟩
      have hl := (List.getElem?_eq_some_iff.1 hk).1
      rcases visits_all h c (List.mem_filter.2 ⟨List.mem_range.2 hl, decide_eq_true ⟨k, hk, hc⟩⟩) with h | h
      · exact h
      · simp at h
  · intro a c b e d hd
    rcases visits_needs h a c b e d hd with h | h | h
    · exact .inl h
    · simp at h
    · exact .inr h

/-- **C81** (no cycle): a class that needs no class which needs it in turn runs after everything it needs. -/
theorem init_after_needs (P : List (Cls σ)) {order : List Nat}
    (h : Visits (deps P) [] (initTypes P) order) (acyclic : ∀ c, ¬ Needs (deps P) c c)
    {before after : List Nat} {c : Nat} (e : order = before ++ c :: after) {d : Nat} (hd : Needs (deps P) c d) :
    d ∈ before := by
  have main : ∀ (x y : Nat), Needs (deps P) x y → ∀ a b, order = a ++ x :: b → y ∈ a := by
    intro x y hxy
    induction hxy with
    | @direct x y hy =>
      intro a b e
      rcases visits_needs h a x b e y hy with h | h | h
      · exact h
      · simp at h
      · exact absurd (Needs.through hy h) (acyclic x)
    | @through x z y hz hzy ih =>
      intro a b e
      have hza : z ∈ a := by
        rcases visits_needs h a x b e z hz with h | h | h
        · exact h
        · simp at h
        · exact absurd (Needs.through hz h) (acyclic x)
      obtain ⟨a1, a2, rfl⟩ := List.append_of_mem hza
      have := ih a1 (a2 ++ x :: b) (by rw [e]; simp)
      exact List.mem_append_left _ this
  exact main c d hd before after e

/-- **C81** (default loaded classes): if the first `m` types need only each other, they are initialized before all others. -/
theorem init_first (P : List (Cls σ)) (hP : ParentsExist P) {order : List Nat}
    (h : Visits (deps P) [] (initTypes P) order) (m : Nat) (hm : m ≤ P.length) (hd : ∀ c < m, ∀ d ∈ deps P c, d < m) :
    ∃ first rest, order = first ++ rest ∧ (∀ c ∈ first, c < m) ∧ ∀ c ∈ rest, m ≤ c := by
  have hall := (init_order P hP h).2.1
  have e : initTypes P = ((List.range m).filter fun c => ∃ k, P[c]? = some k ∧ k.kind ≠ .builtin) ++
      ((List.range' m (P.length - m)).filter fun c => ∃ k, P[c]? = some k ∧ k.kind ≠ .builtin) := by
    unfold initTypes
    rw [← List.filter_append]
    congr 1
    rw [List.range_eq_range', List.range_eq_range']
    have := List.range'_append_1 (s := 0) (m := m) (n := P.length - m)
    rw [Nat.zero_add] at this
    rw [this]
    congr 1
    omega
  have h' := h
  rw [e] at h'
  obtain ⟨o₁, o₂, rfl, v, hn⟩ := visits_append h'
  refine ⟨o₁, o₂, rfl, ?_, ?_⟩
  · intro c hc
    rcases visits_reach v c hc with h | ⟨d, hd', h⟩
    · exact List.mem_range.1 (List.mem_filter.1 h).1
    · have : ∀ a b, Needs (deps P) a b → a < m → b < m := by
        intro a b h
        induction h with
        | direct h => exact fun ha => hd _ ha _ h
        | through h _ ih => exact fun ha => ih (hd _ ha _ h)
      exact this d c h (List.mem_range.1 (List.mem_filter.1 hd').1)
  · intro c hc
    apply Nat.le_of_not_lt
    intro hlt
    exact hn c hc (List.mem_filter.2 ⟨List.mem_range.2 hlt, decide_eq_true ((hall c).1 (by simp [hc]))⟩)

/-- **C81** (success): if `call_init_methods` of a new program returns without an exception, the blocks of all classes ran. -/
theorem init_complete (P : List (Cls σ)) (hP : ParentsExist P) (hn : P.length ≤ 999) (env : σ)
    (ok : (callInitMethods P (start env)).1 = .ok ()) :
    ∃ order : List Nat, order.Nodup ∧ (∀ c, c ∈ order ↔ ∃ k, P[c]? = some k ∧ k.kind ≠ .builtin) ∧
      runAll P order env = (.ok (), (callInitMethods P (start env)).2.env) := by
  obtain ⟨o, v, _, h⟩ := init_runs P hP hn
  have := init_order P hP v
  exact ⟨o, this.1, this.2.1, by rw [← h env, ok]⟩

/-- The programs of a history are complete and not too large. -/
def Fine (P : List (Cls σ)) : List (Op σ) → Prop
  | [] => True
  | .load new :: ops => ParentsExist (P ++ new) ∧ (P ++ new).length ≤ 999 ∧ Fine (P ++ new) ops
  | .initAll :: ops => Fine P ops
  | .initOne c :: ops => c < P.length ∧ Fine P ops

theorem history_from (P : List (Cls σ)) (hP : ParentsExist P) (hn : P.length ≤ 999) (ops : List (Op σ)) (hf : Fine P ops)
    (seen : List Nat) (s : St σ) (hs : ∀ x, s.initialized x = true ↔ x ∈ seen) :
    ∃ rans : List (List Nat), rans.length = ops.length ∧ rans.flatten.Nodup ∧ (∀ x ∈ rans.flatten, x ∉ seen) ∧
      ((runHistory P ops s).1, (runHistory P ops s).2.env) = replay P ops rans s.env := by
  have step : ∀ (P : List (Cls σ)) (cs o : List Nat) (r : Out Unit × St σ) (seen : List Nat) (s : St σ),
      (∀ x, s.initialized x = true ↔ x ∈ seen) → Visits (deps P) seen cs o → Post P o s r →
      ∃ ran seen' : List Nat, ran.Nodup ∧ (∀ x ∈ ran, x ∉ seen) ∧ (∀ x ∈ seen, x ∈ seen') ∧ (∀ x ∈ ran, x ∈ seen') ∧
        (∀ x, r.2.initialized x = true ↔ x ∈ seen') ∧ runAll P ran s.env = (r.1, r.2.env) := by
    intro P cs o r seen s hs v p
    obtain ⟨ran, rest, rfl, er, hr⟩ := p.ran
    have hfr := visits_fresh v
    have hfl : ∀ x, r.2.initialized x = true ↔ x ∈ ((ran ++ rest) ++ seen).filter (fun x => r.2.initialized x) := by
      intro x
      rw [List.mem_filter]
      refine ⟨fun h => ⟨?_, h⟩, fun h => h.2⟩
      rcases p.upper x h with h | h
      · exact List.mem_append_left _ h
      · exact List.mem_append_right _ ((hs x).1 h)
    refine ⟨ran, _, (List.nodup_append.1 hfr.1).1, fun x hx => hfr.2 x (by simp [hx]), fun x hx => (hfl x).1 (p.keep x ((hs x).2 hx)),
      fun x hx => (hfl x).1 (hr x hx), hfl, ?_⟩
    rw [er, p.out, p.env]
  induction ops generalizing P seen s with
  | nil => exact ⟨[], rfl, by simp, by simp, rfl⟩
  | cons op ops ih =>
    cases op with
    | load new =>
      obtain ⟨h1, h2, h3⟩ := hf
      obtain ⟨rans, hl, hd, hx, e⟩ := ih (P ++ new) h1 h2 h3 seen s hs
      refine ⟨[] :: rans, by simp [hl], by simpa using hd, by simpa using hx, ?_⟩
      simp only [runHistory, replay]
      rw [← e]
    | initAll =>
      obtain ⟨o, v, p⟩ := initAll_spec (closed hP) hn seen s hs
      obtain ⟨ran, seen', n1, n2, n3, n4, hs', er⟩ := step P _ o _ seen s hs v p
      obtain ⟨rans, hl, hd, hx, e⟩ := ih P hP hn hf seen' _ hs'
      refine ⟨ran :: rans, by simp [hl], ?_, ?_, ?_⟩
      · rw [List.flatten_cons, List.nodup_append]
        refine ⟨n1, hd, ?_⟩
        rintro a ha b hb rfl
        exact hx a hb (n4 a ha)
      · intro x h
        rw [List.flatten_cons, List.mem_append] at h
        rcases h with h | h
        · exact n2 x h
        · exact fun hs => hx x h (n3 x hs)
      · simp only [runHistory, replay]
        rw [er]
        dsimp only
        rw [← e]
    | initOne c =>
      obtain ⟨hc, hf⟩ := hf
      have hu := unseen_le P.length seen
      obtain ⟨o, v, p⟩ := call_spec (closed hP) 1000 c hc seen s hs (by omega)
      obtain ⟨ran, seen', n1, n2, n3, n4, hs', er⟩ := step P _ o _ seen s hs v p
      obtain ⟨rans, hl, hd, hx, e⟩ := ih P hP hn hf seen' _ hs'
      refine ⟨ran :: rans, by simp [hl], ?_, ?_, ?_⟩
      · rw [List.flatten_cons, List.nodup_append]
        refine ⟨n1, hd, ?_⟩
        rintro a ha b hb rfl
        exact hx a hb (n4 a ha)
      · intro x h
        rw [List.flatten_cons, List.mem_append] at h
        rcases h with h | h
        · exact n2 x h
        · exact fun hs => hx x h (n3 x hs)
      · simp only [runHistory, replay]
        rw [er]
        dsimp only
        rw [← e]

/-- **C81** (only once): whatever classes are loaded later, and however often `INIT` methods are called, with and without
exceptions, the blocks of a class run at most once: the history is that of running the blocks of certain classes, none of them
twice. -/
theorem init_once (P : List (Cls σ)) (hP : ParentsExist P) (hn : P.length ≤ 999) (ops : List (Op σ)) (hf : Fine P ops)
    (env : σ) : ∃ rans : List (List Nat), rans.length = ops.length ∧ rans.flatten.Nodup ∧
      ((runHistory P ops (start env)).1, (runHistory P ops (start env)).2.env) = replay P ops rans env := by
  obtain ⟨rans, h1, h2, _, h3⟩ := history_from P hP hn ops hf [] (start env) (by simp [start])
  exact ⟨rans, h1, h2, h3⟩

/-! ## Where the code departs from the property -/

/-- A program that counts the blocks that ran. -/
def counting : List (Cls Nat) :=
  [⟨.class, none, [1], [fun n => (.ok false, n + 10)]⟩, ⟨.class, none, [], [fun n => (.die "no", n + 1)]⟩]

/-- **C81**, violated: after an exception in the `INIT` method of a used class, another call succeeds although the blocks of the
class that uses it never ran. -/
theorem init_after_error_violated :
    (runHistory counting [.initAll, .initAll] (start 0)).1 = [.die "no", .ok ()] ∧
    (runHistory counting [.initAll, .initAll] (start 0)).2.env = 1 := by
  decide +kernel

/-- **C81**, violated: `Native::API->call_init_methods` does not pass on an exception of an `INIT` method. -/
theorem init_api_violated : (callInitMethods counting (start 0)).1 = .die "no" ∧
    (apiCallInitMethods counting (start 0)).1 = .ok () := by
  decide +kernel

/-- Classes each of which uses the next one. -/
def chain (n : Nat) : List (Cls σ) := (List.range n).map fun i => ⟨.class, none, [i + 1], []⟩

theorem chain_get {n c : Nat} (h : c < n) : (chain n : List (Cls σ))[c]? = some ⟨.class, none, [c + 1], []⟩ := by
  simp [chain, h]

theorem chain_call (n left c : Nat) (h : c + left < n) (s : St σ) (hs : ∀ x, c ≤ x → s.initialized x = false) :
    (callInit (chain n) left c s).1 = .die msgDeep := by
  induction left generalizing c s with
  | zero => rfl
  | succ left ih =>
    rw [callInit, Prog.get_bind_apply, Prog.ite_apply, hs c (Nat.le_refl _), if_neg (by simp)]
    show ((match (chain n : List (Cls σ))[c]? with
      | some k => runStmts (callInit (chain n) left) (initStatements (chain n) k)
      | none => pure () : Prog (St σ) Unit) (mark c s).2).1 = _
    rw [chain_get (by omega)]
    dsimp only
    have e : initStatements (chain n) (⟨.class, none, [c + 1], []⟩ : Cls σ) = [.callInit (c + 1)] := by
      have := initStatements_eq (P := chain n) (c := c) (chain_get (σ := σ) (by omega))
      rw [this]
      simp [deps, chain_get (σ := σ) (show c < n by omega), chain_get (σ := σ) (show c + 1 < n by omega)]
    rw [e, runStmts, Prog.bind_apply]
    have := ih (c + 1) (by omega) (mark c s).2 (by
      intro x hx
      simp only [mark, hs x (by omega), Bool.or_false, decide_eq_false_iff_not]
      omega)
    rcases hr : callInit (chain n) left (c + 1) (mark c s).2 with ⟨r, s'⟩
    rw [hr] at this
    dsimp only at this
    rw [this]

/-- **C81**, violated for large programs: a chain of more than 1000 classes each of which uses the next one cannot be
initialized. -/
theorem init_deep_violated (n : Nat) (h : 1000 < n) (env : σ) :
    ParentsExist (chain n : List (Cls σ)) ∧ (callInitMethods (chain n) (start env)).1 = .die msgDeep := by
  refine ⟨?_, ?_⟩
  · intro c k p hk hp
    have hl := (List.getElem?_eq_some_iff.1 hk).1
    rw [chain_get (by simpa [chain] using hl)] at hk
    cases hk
    simp at hp
  · unfold callInitMethods
    have hl : (chain n : List (Cls σ)).length = n := by simp [chain]
    obtain ⟨m, rfl⟩ : ∃ m, n = m + 1 := ⟨n - 1, by omega⟩
    rw [hl, List.range_succ_eq_map, initLoop, chain_get (by omega)]
    simp only [hasInit, ne_eq, reduceCtorEq, not_false_eq_true, decide_true, if_true]
    rw [Prog.bind_apply]
    have := chain_call (σ := σ) (m + 1) 1000 0 (by omega) (start env) (by simp [start])
    rcases hr : callInit (chain (m + 1)) 1000 0 (start env) with ⟨r, s'⟩
    rw [hr] at this
    dsimp only at this
    rw [this]

/-! ## Non-vacuity -/

/-- Type 0 is built-in, class 1 uses 2 and 4, class 2 uses 1 (a cycle) and has the parent class 3, type 4 is an interface; the
state is the list of blocks that ran. -/
def sample : List (Cls (List Nat)) :=
  [⟨.builtin, none, [], []⟩,
   ⟨.class, none, [2, 4], [fun l => (.ok false, l ++ [10]), fun l => (.ok true, l ++ [11]), fun l => (.ok false, l ++ [12])]⟩,
   ⟨.class, some 3, [1], [fun l => (.ok false, l ++ [20])]⟩,
   ⟨.class, none, [], [fun l => (.ok false, l ++ [30])]⟩,
   ⟨.interface, none, [], [fun l => (.ok false, l ++ [40])]⟩]

example : (callInitMethods sample (start [])).1 = .ok () ∧
    (callInitMethods sample (start [])).2.env = [30, 20, 10, 11, 40] := by decide +kernel
example : ParentsExist sample := by
  intro c k p hk hp
  match c with
  | 0 | 1 | 3 | 4 => cases hk; simp at hp
  | 2 => cases hk; cases hp; rfl
  | _ + 5 => simp [sample] at hk
example : Visits (deps sample) [] [1, 2, 3, 4] [3, 2, 1, 4] := by
  refine .visit (o₁ := [3, 2]) (by simp) ?_ (.skip (by simp) (.skip (by simp) (.visit (o₁ := []) (by simp) .nil .nil)))
  exact .visit (o₁ := [3]) (by simp) (.visit (o₁ := []) (by simp) .nil (.skip (by simp) .nil)) .nil
example : Fine sample [.initAll, .load [⟨.class, some 1, [], []⟩], .initOne 5, .initAll] := by
  refine ⟨?_, by decide, by decide, trivial⟩
  intro c k p hk hp
  match c with
  | 0 | 1 | 3 | 4 => cases hk; simp at hp
  | 2 | 5 => cases hk; cases hp; rfl
  | _ + 6 => simp [sample] at hk
example : (runHistory sample [.initAll, .load [⟨.class, some 1, [], [fun l => (.ok false, l ++ [50])]⟩], .initOne 5, .initAll]
    (start [])).2.env = [30, 20, 10, 11, 40, 50] := by decide +kernel

end SPVM.Init
