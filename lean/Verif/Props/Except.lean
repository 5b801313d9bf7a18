import Verif.Lemmas.Except

/-! C89: what an exception handler sees. -/

namespace SPVM.Except

private def mainM : Meth := ⟨"Main".toList, "run".toList, "Main.spvm".toList⟩
private def innerM : Meth := ⟨"Foo".toList, "bar".toList, "Foo.spvm".toList⟩
private def s0 : St := ⟨none, 0, []⟩

/-- `eval { Foo->bar; look } look`, where `Foo->bar` is `eval { die 20, "x" } look; die 7, "Oops"`. -/
private def prog : Code :=
  .seq (.evalB (.seq (.call innerM (.seq (.evalB (.die 20 (some "x".toList) 3)) (.seq .look (.die 7 (some "Oops".toList) 5))) 12) .look)) .look

/-- A program whose `die` statements have a message and an ID other than 0, and which makes at most 100 calls inside each other,
behaves as documented: the handler finds the ID and the message followed by one line for each method from the one that threw to the one that
catches, innermost first; nothing between the throw and the handler is executed; and `$@` and `eval_error_id` are what is documented at
every place that looks at them. -/
theorem caught_partial {c : Code} (m : Meth) (depth : Nat) (s : St) (hp : Proper c) (hd : depth + calls c ≤ 100) :
    match want Thrown.text m depth c s with
    | (none, s') => exec m depth c s = .ok (0, s')
    | (some t, s') => t.id ≠ 0 ∧ exec m depth c s = .ok (t.id, { s' with exc := some t.text }) := by
  have h := agrees c m depth s hp
  rw [want_text c m depth s hd] at h
  unfold Agrees at h
  cases hw : want Thrown.text m depth c s with
  | mk o s' =>
    rw [hw] at h
    cases o with
    | none => exact h
    | some t =>
      have ht : t.cut = t.text := cut_eq_text (fun p hp' => Nat.le_trans (places_depth _ c m depth s hw p hp') hd)
      simp only at h ⊢
      rw [← ht]
      exact h

example : Proper prog ∧ 1 + calls prog ≤ 100 := by
  refine ⟨⟨⟨⟨?_, trivial, ?_⟩, trivial⟩, trivial⟩, by decide⟩ <;> exact ⟨by decide, by simp⟩

example : exec mainM 1 prog s0 = .ok (0,
    { exc := some "Oops\n  Foo->bar at Foo.spvm line 5\n  Main->run at Main.spvm line 12".toList, evalErr := 7,
      log := [(some "x\n  Foo->bar at Foo.spvm line 3".toList, 20),
        (some "Oops\n  Foo->bar at Foo.spvm line 5\n  Main->run at Main.spvm line 12".toList, 7)] }) := by decide +kernel

/-- At any depth: the same, except that the lines of methods that run at a call depth over 100 are missing. -/
theorem caught_deep {c : Code} (m : Meth) (depth : Nat) (s : St) (hp : Proper c) :
    match want Thrown.cut m depth c s with
    | (none, s') => exec m depth c s = .ok (0, s')
    | (some t, s') => t.id ≠ 0 ∧ exec m depth c s = .ok (t.id, { s' with exc := some t.cut }) := by
  have h := agrees c m depth s hp
  unfold Agrees at h
  cases hw : want Thrown.cut m depth c s with
  | mk o s' => rw [hw] at h; cases o <;> exact h

/-- No undefined behaviour, and an eval block never lets an exception out. -/
theorem eval_catches {c : Code} (m : Meth) (depth : Nat) (s : St) (hp : Proper c) :
    ∃ s', exec m depth (.evalB c) s = .ok (0, s') := by
  have h := caught_deep (c := .evalB c) m depth s hp
  cases hw : want Thrown.cut m depth (.evalB c) s with
  | mk o s' =>
    rw [hw] at h
    cases o with
    | none => exact ⟨s', h⟩
    | some t =>
      unfold want at hw
      cases hw2 : want Thrown.cut m depth c { s with exc := none, evalErr := 0 } with
      | mk o2 s2 => rw [hw2] at hw; cases o2 <;> cases hw

/-- A chain of calls, each made at line `k` of method `mk`. -/
def chain (last : Code) : List (Meth × Int) → Code
  | [] => last
  | (m, line) :: rest => .call m (chain last rest) line

/-- Lines of a stack trace, spelled out for a chain: the outermost method `m` calls the first method of the chain at the first line, and
so on, and the last one dies at `line`. -/
def chainTrace (m : Meth) (depth : Nat) (line : Int) : List (Meth × Int) → List Place
  | [] => [⟨m, line, depth⟩]
  | (m', l) :: rest => chainTrace m' (depth + 1) line rest ++ [⟨m, l, depth⟩]

theorem proper_chain {last : Code} (h : Proper last) : ∀ ms, Proper (chain last ms)
  | [] => h
  | (_, _) :: rest => proper_chain h rest

theorem calls_chain (last : Code) : ∀ ms, calls (chain last ms) = calls last + ms.length
  | [] => rfl
  | (_, _) :: rest => by
    show calls (chain last rest) + 1 = _
    rw [calls_chain last rest, List.length_cons]; omega

theorem want_chain (id : Int) (e : Msg) (line : Int) (text : Thrown → Msg) : ∀ (ms : List (Meth × Int)) (m : Meth) (depth : Nat) (s : St),
    depth + ms.length ≤ 1000 →
    want text m depth (chain (.die id (some e) line) ms) s = (some ⟨id, e, chainTrace m depth line ms⟩, s)
  | [], _, _, _, _ => rfl
  | (m', l) :: rest, m, depth, s, h => by
    have h' : depth + 1 + rest.length ≤ 1000 := by rw [List.length_cons] at h; omega
    show want text m depth (.call m' (chain (.die id (some e) line) rest) l) s = _
    unfold want
    rw [if_neg (by omega), want_chain id e line text rest m' (depth + 1) _ h']
    rfl

/-- A message thrown through any chain of up to 100 calls reaches the eval block with exactly one line for each of them. -/
theorem chain_trace {id : Int} (hid : id ≠ 0) (e : Msg) (line : Int) (ms : List (Meth × Int)) (m : Meth) (depth : Nat) (s : St)
    (hd : depth + ms.length ≤ 100) :
    exec m depth (.evalB (chain (.die id (some e) line) ms)) s =
      .ok (0, { s with exc := some (e ++ ((chainTrace m depth line ms).map Place.text).flatten), evalErr := id }) := by
  have hp : Proper (.evalB (chain (.die id (some e) line) ms)) := proper_chain (last := .die id (some e) line) ⟨hid, by simp⟩ ms
  have hc : depth + calls (.evalB (chain (.die id (some e) line) ms)) ≤ 100 := by
    show depth + calls (chain _ ms) ≤ 100
    rw [calls_chain]
    show depth + (0 + ms.length) ≤ 100
    omega
  have h := caught_partial (c := .evalB (chain (.die id (some e) line) ms)) m depth s hp hc
  have hw : want Thrown.text m depth (.evalB (chain (.die id (some e) line) ms)) s =
      (none, { s with exc := some (Thrown.text ⟨id, e, chainTrace m depth line ms⟩), evalErr := id }) := by
    unfold want
    rw [want_chain id e line Thrown.text ms m depth _ (by omega)]
  rw [hw] at h
  exact h

example : exec mainM 1 (.evalB (chain (.die 7 (some "Oops".toList) 5) [(innerM, 12)])) s0 =
    .ok (0, ⟨some "Oops\n  Foo->bar at Foo.spvm line 5\n  Main->run at Main.spvm line 12".toList, 7, []⟩) := by decide +kernel

/-- An empty eval block leaves `$@` undefined and `eval_error_id` 0. -/
theorem eval_clears (m : Meth) (depth : Nat) (s : St) : exec m depth (.evalB .skip) s = .ok (0, { s with exc := none, evalErr := 0 }) := rfl

/-- `die $message` with a message that is undefined at run time, documented to throw "Error", dereferences a null pointer. -/
theorem undef_message_violated :
    exec mainM 1 (.evalB (.die 18 none 3)) s0 = .ub ∧
    (want Thrown.text mainM 1 (.evalB (.die 18 none 3)) s0).2.exc = some "Error\n  Main->run at Main.spvm line 3".toList := by
  refine ⟨rfl, by decide +kernel⟩

/-- `die 0, "x"` throws nothing: the statement after it is executed, with the message in `$@`. -/
theorem zero_id_violated :
    exec mainM 1 (.evalB (.seq (.die 0 (some "x".toList) 3) .look)) s0 = .ok (0, ⟨some "x".toList, 0, [(some "x".toList, 0)]⟩) ∧
    (want Thrown.text mainM 1 (.evalB (.seq (.die 0 (some "x".toList) 3) .look)) s0).2.log = [] := by
  refine ⟨rfl, rfl⟩

/-- An exception thrown 100 calls below the eval block, at call depth 101, loses the line that threw it. -/
theorem deep_trace_violated : ∃ (c : Code) (s' : St), Proper c ∧ exec mainM 1 (.evalB c) s0 = .ok (0, s') ∧
    s'.exc ≠ (want Thrown.text mainM 1 (.evalB c) s0).2.exc := by
  have hp : Proper (chain (.die 7 (some ['x']) 5) (List.replicate 100 (innerM, (12 : Int)))) := proper_chain (last := .die 7 (some ['x']) 5) ⟨by decide, by simp⟩ _
  have h := caught_deep (c := .evalB (chain (.die 7 (some ['x']) 5) (List.replicate 100 (innerM, 12)))) mainM 1 s0 hp
  have hw : ∀ text, want text mainM 1 (.evalB (chain (.die 7 (some ['x']) 5) (List.replicate 100 (innerM, 12)))) s0 =
      (none, { s0 with exc := some (text ⟨7, ['x'], chainTrace mainM 1 5 (List.replicate 100 (innerM, 12))⟩), evalErr := 7 }) := by
    intro text
    unfold want
    rw [want_chain 7 ['x'] 5 text _ mainM 1 _ (by rw [List.length_replicate]; omega)]
  refine ⟨_, _, hp, by rw [hw] at h; exact h, ?_⟩
  rw [hw]
  intro hc
  have := congrArg (fun o => (o.getD []).length) hc
  revert this
  decide +kernel

/-! ### `env->die` -/

/-- The place that `env->die` adds. -/
def placeText (func file : Msg) (line : Int) : Msg :=
  "\n    ".toList ++ func ++ " at ".toList ++ file ++ " line ".toList ++ decimal line

theorem printf_plain {c : Char} (h : c ≠ '%') (l : Msg) (as : List Arg) :
    printf (c :: l) as = (printf l as >>= fun t => Out.ok (c :: t.1, t.2)) := by
  rw [printf]
  · rw [if_neg h]
  all_goals (intros; contradiction)

/-- Text without conversions is printed as it is. -/
theorem printf_text : ∀ (p l : Msg) (as : List Arg), (∀ c ∈ p, c ≠ '%') →
    printf (p ++ l) as = (printf l as >>= fun t => Out.ok (p ++ t.1, t.2))
  | [], l, as, _ => by
    simp only [List.nil_append]
    cases printf l as <;> rfl
  | c :: p, l, as, h => by
    rw [List.cons_append, printf_plain (h c List.mem_cons_self),
      printf_text p l as (fun c' hc' => h c' (List.mem_cons_of_mem _ hc'))]
    cases printf l as <;> rfl

theorem placeFormat : "\n    %s at %s line %d".toList =
    "\n    ".toList ++ '%' :: 's' :: (" at ".toList ++ '%' :: 's' :: (" line ".toList ++ '%' :: 'd' :: [])) := by decide +kernel

theorem printf_place (func file : Msg) (line : Int) :
    printf "\n    %s at %s line %d".toList [.str func, .str file, .int line] = .ok (placeText func file line, []) := by
  have h1 : ∀ c ∈ "\n    ".toList, c ≠ '%' := by decide +kernel
  have h2 : ∀ c ∈ " at ".toList, c ≠ '%' := by decide +kernel
  have h3 : ∀ c ∈ " line ".toList, c ≠ '%' := by decide +kernel
  unfold placeText
  rewrite [placeFormat]
  revert h1 h2 h3
  generalize "\n    ".toList = p1
  generalize " at ".toList = p2
  generalize " line ".toList = p3
  intro h1 h2 h3
  rw [printf_text p1 _ _ h1, printf, printf_text p2 _ _ h2, printf, printf_text p3 _ _ h3, printf, printf]
  simp only [Out.ok_bind, List.append_nil, List.append_assoc]

/-- Every message written as pieces is printed as it reads, and uses exactly its arguments. -/
theorem printf_pieces : ∀ ps : List Piece, (∀ c, Piece.plain c ∈ ps → c ≠ '%') →
    printf (ps.flatMap Piece.format) (ps.flatMap Piece.args) = .ok (ps.flatMap Piece.shown, [])
  | [], _ => by simp [printf]
  | p :: ps, h => by
    have ih := printf_pieces ps (fun c hc => h c (List.mem_cons_of_mem _ hc))
    simp only [List.flatMap_cons]
    cases p with
    | plain c =>
      simp only [Piece.format, Piece.args, Piece.shown, List.cons_append, List.nil_append]
      rw [printf_plain (h c List.mem_cons_self), ih, Out.ok_bind]
    | percent =>
      simp only [Piece.format, Piece.args, Piece.shown, List.cons_append, List.nil_append]
      rw [printf, ih, Out.ok_bind]
    | str s =>
      simp only [Piece.format, Piece.args, Piece.shown, List.cons_append, List.nil_append]
      rw [printf, ih, Out.ok_bind]
    | num d i =>
      cases d <;> simp only [Piece.format, Piece.args, Piece.shown, List.cons_append, List.nil_append, if_true, Bool.false_eq_true, if_false] <;>
        rw [printf, ih, Out.ok_bind] <;> rfl

/-- A native exception with a format of at most 255 bytes and a text that fits: for every message of plain text, percent signs, strings and
numbers the exception is what the message reads and the place. -/
theorem api_die_partial (ps : List Piece) (hp : ∀ c, Piece.plain c ∈ ps → c ≠ '%') (hf : (ps.flatMap Piece.format).length ≤ 255)
    (func file : Msg) (line : Int) (hl : (ps.flatMap Piece.shown ++ placeText func file line).length ≤ 511) :
    apiDie (ps.flatMap Piece.format) (ps.flatMap Piece.args) func file line = .ok (ps.flatMap Piece.shown ++ placeText func file line) := by
  unfold apiDie
  rw [List.take_of_length_le hf, printf_append _ _ (printf_pieces ps hp), List.nil_append, printf_place]
  show Out.ok (List.take 511 (ps.flatMap Piece.shown ++ placeText func file line)) = _
  rw [List.take_of_length_le hl]

/-- The hypotheses of `api_die_partial` hold for `%d%% of %s`. -/
example :
    let ps : List Piece := [.num true (-3), .percent, .plain ' ', .plain 'o', .plain 'f', .plain ' ', .str "$a".toList, .num false 7]
    ps.flatMap Piece.format = "%d%% of %s%i".toList ∧ ps.flatMap Piece.shown = "-3% of $a7".toList ∧ (∀ c, Piece.plain c ∈ ps → c ≠ '%') := by
  refine ⟨by decide +kernel, by decide +kernel, ?_⟩
  intro c hc
  simp only [List.mem_cons, Piece.plain.injEq, reduceCtorEq, List.not_mem_nil, false_or, or_false] at hc
  rcases hc with rfl | rfl | rfl | rfl <;> decide

example : apiDie "The length %d of %s".toList [.int 3, .str "$a".toList] "f".toList "F.c".toList 9 =
    .ok "The length 3 of $a\n    f at F.c line 9".toList := by decide +kernel

/-- In every case the text fits into the buffer. -/
theorem api_die_bounded {fmt : Msg} {args : List Arg} {func file : Msg} {line : Int} {t : Msg}
    (h : apiDie fmt args func file line = .ok t) : t.length ≤ 511 := by
  unfold apiDie at h
  cases hp : printf (fmt.take 255 ++ "\n    %s at %s line %d".toList) (args ++ [.str func, .str file, .int line]) with
  | die e => rw [hp] at h; cases h
  | ub => rw [hp] at h; cases h
  | ok x =>
    rw [hp] at h
    cases h
    rw [List.length_take]
    exact Nat.min_le_left _ _

/-- A long argument removes the place, and the end of the message, from the exception. -/
theorem api_die_long_violated : apiDie "%s".toList [.str (List.replicate 600 'a')] "f".toList "F.c".toList 9 = .ok (List.replicate 511 'a') := by
  decide +kernel

/-- A format over 255 bytes whose conversion is cut is undefined behaviour, although formatting it is not. -/
theorem api_die_format_violated :
    (∃ t, printf (List.replicate 254 'a' ++ "%s".toList) [.str "x".toList] = .ok (t, [])) ∧
    apiDie (List.replicate 254 'a' ++ "%s".toList) [.str "x".toList] "f".toList "F.c".toList 9 = .ub := by
  refine ⟨⟨List.replicate 254 'a' ++ ['x'], by decide +kernel⟩, by decide +kernel⟩

end SPVM.Except
