import Verif.Lemmas.Precomp

/-
The C code does what the instructions with names say.
-/

namespace SPVM.Precomp

open Spec.Precomp Spec.PrecompName

/-! ## String literals -/

theorem readLit_plain {n : Name} (h : ∀ c ∈ n, c ≠ '"' ∧ c ≠ '\\' ∧ c ≠ '\n') : readLit .plain n = some (bytesOf n) := by
  induction n with
  | nil => rfl
  | cons c n ih =>
    obtain ⟨h1, h2, h3⟩ := h c (by simp)
    simp only [readLit, if_neg h2]
    rw [if_neg (by simp [h1, h3]), ih (fun c hc => h c (by simp [hc]))]
    rfl

theorem hexValue_digit : ∀ n : Fin 16, hexValue (hexDigit n.val) = some n.val := by decide +kernel

theorem hexValue_lt {n : Nat} (h : n < 16) : hexValue (hexDigit n) = some n := hexValue_digit ⟨n, h⟩

theorem hexValue_backslash : hexValue '\\' = none := by decide +kernel

theorem hexText_cons (b : UInt8) (bs : List UInt8) :
    hexText (b :: bs) = '\\' :: 'x' :: hexDigit (b.toNat / 16) :: hexDigit (b.toNat % 16) :: hexText bs := by
  simp [hexText]

theorem readLit_hex (bs : List UInt8) :
    readLit .plain (hexText bs) = some bs ∧ ∀ v : UInt8, readLit (.hex v.toNat) (hexText bs) = some (v :: bs) := by
  induction bs with
  | nil =>
    refine ⟨rfl, ?_⟩
    intro v
    have : v.toNat < 256 := v.toNat_lt
    simp [hexText, readLit, this]
  | cons b bs ih =>
    have hb : b.toNat < 256 := b.toNat_lt
    have hd : b.toNat / 16 * 16 + b.toNat % 16 = b.toNat := by omega
    have hesc : readLit .escape ('x' :: hexDigit (b.toNat / 16) :: hexDigit (b.toNat % 16) :: hexText bs) = some (b :: bs) := by
      rw [readLit, if_pos rfl, readLit, hexValue_lt (by omega), Option.bind_some, readLit]
      simp only [hexValue_lt (show b.toNat % 16 < 16 by omega), hd]
      exact ih.2 b
    rw [hexText_cons]
    constructor
    · rw [readLit, if_pos rfl]
      exact hesc
    · intro v
      have hv : v.toNat < 256 := v.toNat_lt
      rw [readLit]
      simp only [hexValue_backslash, if_pos hv, if_true, hesc]
      simp

theorem takeWhile_all {α} {q : α → Bool} {l : List α} (h : ∀ a ∈ l, q a = true) : l.takeWhile q = l := by
  induction l with
  | nil => rfl
  | cons a l ih =>
    simp only [List.takeWhile_cons, h a (by simp), if_true]
    rw [ih (fun a ha => h a (by simp [ha]))]

theorem char_byte (b : UInt8) : (Char.ofNat b.toNat).toNat = b.toNat := by
  have hb : b.toNat < 256 := b.toNat_lt
  have hv : b.toNat.isValidChar := Or.inl (by omega)
  have e : (Char.ofNatAux b.toNat hv).toNat = b.toNat := by
    simp only [Char.toNat, Char.ofNatAux, UInt32.toNat]
    exact BitVec.toNat_ofNatLT ..
  simpa [Char.ofNat, hv] using e

theorem readLit_text {bs : List UInt8} (h : ∀ b ∈ bs, b ≠ 34 ∧ b ≠ 92 ∧ b ≠ 10 ∧ b ≠ 0) : readLit .plain (cText bs) = some bs := by
  have e : cText bs = bs.map fun b => Char.ofNat b.toNat := by
    unfold cText
    rw [takeWhile_all]
    intro b hb
    have := (h b hb).2.2.2
    simpa using this
  have hne : ∀ (b : UInt8) (k : UInt8) (c : Char), c.toNat = k.toNat → b ≠ k → Char.ofNat b.toNat ≠ c := by
    intro b k c hc hbk hbc
    apply hbk
    apply UInt8.toNat_inj.1
    rw [← hc, ← hbc, char_byte]
  rw [e, readLit_plain]
  · congr 1
    unfold bytesOf
    rw [List.map_map]
    conv => rhs; rw [← List.map_id bs]
    apply List.map_congr_left
    intro b _
    simp [char_byte]
  · intro c hc
    obtain ⟨b, hb, rfl⟩ := List.mem_map.1 hc
    obtain ⟨h1, h2, h3, _⟩ := h b hb
    exact ⟨hne b 34 '"' rfl h1, hne b 92 '\\' rfl h2, hne b 10 '\n' rfl h3⟩

/-! ## What is written -/

/-- How an argument is written. -/
def rep : NArg → CArg
  | .sym s => .sym (toSym s)
  | .var b i => .var b i
  | .addr b i => .addr b i
  | .num w => .int w
  | .byte w => .byte w
  | .long w => .long w
  | .float w => .float w
  | .double w => .double w
  | .entity e => .ident (ident e)
  | .typeId c => .getId (ident (.basicType c))
  | .typeOfVar i => .typeOfVar i
  | .name n => .lit n
  | .text bs => .lit (cText bs)
  | .data bs => .lit (hexText bs)

theorem genArg_says {rt : Runtime} (hd : Distinct rt) {m : Code} {op : Op} {v : VArg} {a : NArg} (h : sayArg rt m op v = some a) :
    genArg rt m op (toP v) = some (rep a) := by
  cases v <;> simp only [sayArg, Option.map_eq_some_iff, Option.bind_eq_some_iff, Option.some.injEq] at h
  case typeId k => obtain ⟨b, hb, rfl⟩ := h; simp [toP, genArg, rep, hb]
  case basicType k => obtain ⟨b, hb, rfl⟩ := h; simp [toP, genArg, rep, hb]
  case classVar c k => obtain ⟨b, hb, w, hw, rfl⟩ := h; simp [toP, genArg, rep, hb, hw]
  case fieldOffset c k => obtain ⟨b, hb, w, hw, rfl⟩ := h; simp [toP, genArg, rep, hb, hw]
  case method c k => obtain ⟨b, hb, w, hw, rfl⟩ := h; simp [toP, genArg, rep, hb, hw]
  case methodName c k => obtain ⟨x, hx, rfl⟩ := h; simp [toP, genArg, rep, hx]
  case methodClassName c k =>
    obtain ⟨x, hx, b, hb, rfl⟩ := h
    simp only [methodAt, Option.bind_eq_some_iff] at hx
    obtain ⟨b', hb', hx'⟩ := hx
    have ho := hd.owner _ b' (byIndex_some hb') x (mem_of_byIndex hx')
    rw [ho, byIndex_some hb', Option.some.injEq] at hb
    subst hb
    simp [toP, genArg, rep, hb']
  case constData k => obtain ⟨x, hx, b, hb, rfl⟩ := h; simp [toP, genArg, rep, hx, hb]
  case constLength k => obtain ⟨x, hx, b, hb, rfl⟩ := h; simp [toP, genArg, rep, hx, hb]
  case constText k => obtain ⟨x, hx, b, hb, rfl⟩ := h; simp [toP, genArg, rep, hx, hb]
  case currentClass => obtain ⟨x, hx, rfl⟩ := h; simp [toP, genArg, rep, hx]
  case currentMethod => obtain ⟨x, hx, rfl⟩ := h; simp [toP, genArg, rep, hx]
  case currentFile => obtain ⟨x, hx, rfl⟩ := h; simp [toP, genArg, rep, hx]
  all_goals (subst h; rfl)

/-- How a statement is written. -/
def repStmt (k : Nat) : NStmt → List CStmt
  | .call f as => if f = .LEAVE_SCOPE ∧ k = 0 then [] else [.call f (as.map rep)]
  | .jump t => [.goto t]
  | .ifZero v t => [.ifZero v t]
  | .ifNonzero v t => [.ifNonzero v t]
  | .catchError l t => [.catchError l t]
  | .leaveOnError l t => [.leaveOnError l t]
  | .switch v cs d => [.switch v cs d]
  | .finish => []

theorem genStmt_says {rt : Runtime} (hd : Distinct rt) {m : Code} {pc : Nat} {op : Op} {v : VStmt} {i : NStmt}
    (h : sayStmt rt m pc op v = some i) : ∃ L, (toPS v).mapM (genStmt rt m pc op) = some L ∧ L.flatten = repStmt m.mortalLen i := by
  cases v <;> simp only [sayStmt, Option.map_eq_some_iff, Option.some.injEq] at h
  case call f args =>
    obtain ⟨as, has, rfl⟩ := h
    have hm : (args.map toP).mapM (genArg rt m op) = some (as.map rep) := mapM_conv (fun a _ b hb => genArg_says hd hb) has
    by_cases hf : f = .LEAVE_SCOPE
    · refine ⟨[if m.mortalLen > 0 then [.call f (as.map rep)] else []], ?_, ?_⟩
      · simp [toPS, hf, genStmt, hm]
      · by_cases hk : m.mortalLen = 0
        · simp [repStmt, hf, hk]
        · simp [repStmt, hf, hk, Nat.pos_of_ne_zero hk]
    · refine ⟨[[.call f (as.map rep)]], ?_, ?_⟩
      · simp [toPS, hf, genStmt, hm]
      · simp [repStmt, hf]
  case switch v n d =>
    obtain ⟨cs, hcs, rfl⟩ := h
    exact ⟨[[.switch (op.get v) cs (op.get d)]], by simp [toPS, genStmt, hcs], by simp [repStmt]⟩
  case finish => subst h; exact ⟨[], rfl, rfl⟩
  all_goals (subst h; exact ⟨_, rfl, rfl⟩)

theorem mapM_append' {α β} {f : α → Option β} {l l' : List α} {b b' : List β} (h : l.mapM f = some b) (h' : l'.mapM f = some b') :
    (l ++ l').mapM f = some (b ++ b') := by
  simp [List.mapM_append, h, h']

theorem genStmts_says {rt : Runtime} (hd : Distinct rt) {m : Code} {pc : Nat} {op : Op} : ∀ {vs : List VStmt} {is : List NStmt},
    vs.mapM (sayStmt rt m pc op) = some is →
    ∃ L, (vs.flatMap toPS).mapM (genStmt rt m pc op) = some L ∧ L.flatten = is.flatMap (repStmt m.mortalLen) := by
  intro vs
  induction vs with
  | nil => intro is h; simp at h; subst h; exact ⟨[], rfl, rfl⟩
  | cons v vs ih =>
    intro is h
    simp only [List.mapM_cons, Option.bind_eq_bind, Option.pure_def, Option.bind_eq_some_iff] at h
    obtain ⟨b, hb, cs, hcs, e⟩ := h
    simp only [Option.some.injEq] at e
    subst e
    obtain ⟨L, h1, h2⟩ := ih hcs
    obtain ⟨L', h1', h2'⟩ := genStmt_says hd hb
    exact ⟨L' ++ L, mapM_append' h1' h1, by simp [h2, h2']⟩

theorem genBlocks_says {rt : Runtime} (hd : Distinct rt) {m : Code} : ∀ {ops : List Op} {pc : Nat} {bs : List (List NStmt)},
    sayBlocks rt m pc ops = some bs → genBlocks rt m pc ops = some (bs.map fun b => b.flatMap (repStmt m.mortalLen)) := by
  intro ops
  induction ops with
  | nil => intro pc bs h; simp [sayBlocks] at h; subst h; rfl
  | cons o ops ih =>
    intro pc bs h
    simp only [sayBlocks, Option.bind_eq_some_iff, Option.map_eq_some_iff] at h
    obtain ⟨b, hb, cs, hcs, rfl⟩ := h
    obtain ⟨L, h1, h2⟩ := genStmts_says hd hb
    simp [genBlocks, genBlock, table, h1, h2, ih hcs]

theorem needs_says {rt : Runtime} {m : Code} {op : Op} {v : VArg} {a : NArg} (h : sayArg rt m op v = some a) :
    (needs v).mapM (mentioned rt op) = some a.entities := by
  cases v <;> simp only [sayArg, Option.map_eq_some_iff, Option.bind_eq_some_iff, Option.some.injEq] at h
  case typeId k => obtain ⟨b, hb, rfl⟩ := h; simp [needs, mentioned, NArg.entities, hb]
  case basicType k => obtain ⟨b, hb, rfl⟩ := h; simp [needs, mentioned, NArg.entities, hb]
  case classVar c k => obtain ⟨b, hb, w, hw, rfl⟩ := h; simp [needs, mentioned, NArg.entities, hb, hw]
  case fieldOffset c k => obtain ⟨b, hb, w, hw, rfl⟩ := h; simp [needs, mentioned, NArg.entities, hb, hw]
  case method c k => obtain ⟨b, hb, w, hw, rfl⟩ := h; simp [needs, mentioned, NArg.entities, hb, hw]
  case methodName c k => obtain ⟨x, hx, rfl⟩ := h; rfl
  case methodClassName c k => obtain ⟨x, hx, b, hb, rfl⟩ := h; rfl
  case constData k => obtain ⟨x, hx, b, hb, rfl⟩ := h; rfl
  case constLength k => obtain ⟨x, hx, b, hb, rfl⟩ := h; rfl
  case constText k => obtain ⟨x, hx, b, hb, rfl⟩ := h; rfl
  case currentClass => obtain ⟨x, hx, rfl⟩ := h; rfl
  case currentMethod => obtain ⟨x, hx, rfl⟩ := h; rfl
  case currentFile => obtain ⟨x, hx, rfl⟩ := h; rfl
  all_goals (subst h; rfl)

theorem needs_args {rt : Runtime} {m : Code} {op : Op} : ∀ {vs : List VArg} {as : List NArg}, vs.mapM (sayArg rt m op) = some as →
    (vs.flatMap needs).mapM (mentioned rt op) = some (as.flatMap NArg.entities) := by
  intro vs
  induction vs with
  | nil => intro as h; simp at h; subst h; rfl
  | cons v vs ih =>
    intro as h
    simp only [List.mapM_cons, Option.bind_eq_bind, Option.pure_def, Option.bind_eq_some_iff] at h
    obtain ⟨b, hb, cs, hcs, e⟩ := h
    simp only [Option.some.injEq] at e
    subst e
    exact mapM_append' (needs_says hb) (ih hcs)

theorem stmtArgs_says {rt : Runtime} {m : Code} {pc : Nat} {op : Op} : ∀ {vs : List VStmt} {is : List NStmt},
    vs.mapM (sayStmt rt m pc op) = some is → (vs.flatMap stmtArgs).mapM (sayArg rt m op) = some (is.flatMap NStmt.args) := by
  intro vs
  induction vs with
  | nil => intro is h; simp at h; subst h; rfl
  | cons v vs ih =>
    intro is h
    simp only [List.mapM_cons, Option.bind_eq_bind, Option.pure_def, Option.bind_eq_some_iff] at h
    obtain ⟨b, hb, cs, hcs, e⟩ := h
    simp only [Option.some.injEq] at e
    subst e
    refine mapM_append' ?_ (ih hcs)
    cases v <;> simp only [sayStmt, Option.map_eq_some_iff, Option.some.injEq] at hb
    case call f args => obtain ⟨as, has, rfl⟩ := hb; exact has
    case switch v n d => obtain ⟨cs, hcs, rfl⟩ := hb; rfl
    all_goals (subst hb; rfl)

/-- What a block mentions. -/
def blockEnts (b : List NStmt) : List Ent := (b.flatMap NStmt.args).flatMap NArg.entities

theorem mentions_says {rt : Runtime} {m : Code} : ∀ {ops : List Op} {pc : Nat} {bs : List (List NStmt)},
    sayBlocks rt m pc ops = some bs → ops.mapM (fun op => (mentionCase op.id).mapM (mentioned rt op)) = some (bs.map blockEnts) := by
  intro ops
  induction ops with
  | nil => intro pc bs h; simp [sayBlocks] at h; subst h; rfl
  | cons o ops ih =>
    intro pc bs h
    simp only [sayBlocks, Option.bind_eq_some_iff, Option.map_eq_some_iff] at h
    obtain ⟨b, hb, cs, hcs, rfl⟩ := h
    rw [List.mapM_cons, mention_table, needs_args (stmtArgs_says hb), ih hcs]
    rfl

/-- The C function, from what the method says. -/
theorem generate_says {rt : Runtime} (hd : Distinct rt) {m : Code} {p : NProg} (h : says rt m = some p) :
    generate rt m = some { cls := p.cls, meth := p.meth, decls := decls (p.blocks.map blockEnts),
                           blocks := p.blocks.map fun b => b.flatMap (repStmt m.mortalLen) } := by
  simp only [says, Option.bind_eq_some_iff, Option.map_eq_some_iff] at h
  obtain ⟨b, hb, x, hx, bs, hbs, rfl⟩ := h
  simp [generate, hb, hx, mentionsOf, mentions_says hbs, genBlocks_says hd hbs]

/-! ## What the C code does -/

theorem cArg_says {rt : Runtime} {ds : List Ent} {a : NArg} (hr : ∀ e ∈ a.entities, refersTo ds e = some e) (hq : a.Quotable) :
    cArg rt ds (rep a) = a.value rt := by
  have hid : ∀ e ∈ a.entities, identValue rt ds (ident e) = byName rt e := by
    intro e he
    have := hr e he
    unfold refersTo at this
    simp [identValue, this]
  cases a with
  | sym s => cases s <;> rfl
  | entity e =>
    simp only [rep, cArg, NArg.value]
    apply hid
    cases e <;> simp [NArg.entities]
  | typeId c =>
    simp only [rep, cArg, NArg.value, hid (.basicType c) (by simp [NArg.entities]), byName]
    cases findName Class.name c rt <;> rfl
  | name n => simp only [rep, cArg, NArg.value, readLit_plain hq, Option.map_some]
  | text bs => simp only [rep, cArg, NArg.value, readLit_text hq, Option.map_some]
  | data bs => simp only [rep, cArg, NArg.value, (readLit_hex bs).1, Option.map_some]
  | _ => rfl

theorem mapM_map_eq {α β γ} {f : β → Option γ} {g : α → Option γ} {h : α → β} : ∀ {l : List α}, (∀ a ∈ l, f (h a) = g a) →
    (l.map h).mapM f = l.mapM g := by
  intro l
  induction l with
  | nil => intro _; rfl
  | cons a l ih =>
    intro H
    simp only [List.map_cons, List.mapM_cons, H a (by simp), ih (fun a ha => H a (by simp [ha]))]

theorem runStmts_append {α σ} (f : α → σ → Next σ) (as bs : List α) (s : σ) :
    runStmts f (as ++ bs) s = match runStmts f as s with | .fall s' => runStmts f bs s' | r => r := by
  induction as generalizing s with
  | nil => rfl
  | cons a as ih =>
    simp only [List.cons_append, runStmts]
    cases f a s with
    | fall s' => exact ih s'
    | _ => rfl

theorem runStmts_one {α σ} (f : α → σ → Next σ) (a : α) (s : σ) : runStmts f [a] s = f a s := by
  simp only [runStmts]
  cases f a s <;> rfl

/-- The state behind a statement. -/
def Next.Ok {σ} (P : σ → Prop) : Next σ → Prop
  | .fall s => P s
  | .jump _ s => P s
  | _ => True

section
variable {σ : Type} (M : Machine σ) (hm : MortalLaws M) (rt : Runtime) (p : NProg) (fn : CFun) (k : Nat)

/-- The mortal stack of a method without one is empty. -/
def Inv (s : σ) : Prop := k = 0 → M.mortalTop s = 0#32

include hm in
theorem nStmt_inv {i : NStmt} (hp : k = 0 → ∀ as, i ≠ .call .PUSH_MORTAL as)
    (hl : k = 0 → ∀ as, i = .call .LEAVE_SCOPE as → as = [.sym .env, .sym .stack, .sym .objectVars, .sym .mortalStack, .sym .addrMortalTop, .num 0#32])
    {s : σ} (hs : Inv M k s) : (nStmt M rt p i s).Ok (Inv M k) := by
  cases i with
  | call f as =>
    simp only [nStmt]
    cases hv : as.mapM (NArg.value rt) with
    | none => trivial
    | some vs =>
      intro hk
      have h1 : f ≠ .PUSH_MORTAL := fun e => hp hk as (by rw [e])
      by_cases h2 : f = .LEAVE_SCOPE
      · subst h2
        have := hl hk as rfl
        subst this
        have hv' : vs = [.sym .env, .sym .stack, .sym .objectVars, .sym .mortalStack, .sym .addrMortalTop, .num 0#32] := by
          have : some vs = some _ := hv.symm.trans rfl
          simpa [symValue] using this
        subst hv'
        have hleave := hm.leave s
        rw [hs hk] at hleave
        show M.mortalTop (M.call _ [.sym .env, .sym .stack, .sym .objectVars, .sym .mortalStack, .sym .addrMortalTop, .num 0#32] s) = _
        rw [hleave]
        exact hs hk
      · rw [hm.call _ _ _ h1 h2]
        exact hs hk
  | jump t => exact hs
  | ifZero v t => simp only [nStmt]; split <;> exact hs
  | ifNonzero v t => simp only [nStmt]; split <;> exact hs
  | catchError l t =>
    simp only [nStmt]
    split
    · intro hk; rw [hm.addTrace, hm.catchError]; exact hs hk
    · exact hs
  | leaveOnError l t =>
    simp only [nStmt]
    split
    · intro hk; rw [hm.addTrace]; exact hs hk
    · exact hs
  | switch v cs d => simp only [nStmt]; split <;> exact hs
  | finish => trivial

include hm in
theorem cStmt_says (hc : fn.cls = p.cls) (hx : fn.meth = p.meth) {i : NStmt} (hf : i ≠ .finish)
    (hr : ∀ a ∈ i.args, ∀ e ∈ a.entities, refersTo fn.decls e = some e) (hq : ∀ a ∈ i.args, a.Quotable)
    (hl : k = 0 → ∀ as, i = .call .LEAVE_SCOPE as → as = [.sym .env, .sym .stack, .sym .objectVars, .sym .mortalStack, .sym .addrMortalTop, .num 0#32])
    {s : σ} (hs : Inv M k s) : runStmts (cStmt M rt fn) (repStmt k i) s = nStmt M rt p i s := by
  cases i with
  | call f as =>
    by_cases h2 : f = .LEAVE_SCOPE ∧ k = 0
    · obtain ⟨rfl, hk⟩ := h2
      have := hl hk as rfl
      subst this
      have hleave := hm.leave s
      rw [hs hk] at hleave
      simp only [repStmt, hk, and_self, if_true, runStmts, nStmt]
      show _ = Next.fall (M.call _ [.sym .env, .sym .stack, .sym .objectVars, .sym .mortalStack, .sym .addrMortalTop, .num 0#32] s)
      rw [hleave]
    · simp only [repStmt, if_neg h2, runStmts_one, cStmt, nStmt]
      rw [mapM_map_eq (l := as) (h := rep) (g := NArg.value rt) (fun a ha => cArg_says (hr a ha) (hq a ha))]
      cases as.mapM (NArg.value rt) <;> rfl
  | switch v cs d =>
    simp only [repStmt, runStmts_one, cStmt, nStmt]
    cases cs.find? fun c => c.1 == M.int v s <;> rfl
  | finish => exact absurd rfl hf
  | _ => simp only [repStmt, runStmts_one, cStmt, nStmt, hc, hx]

include hm in
theorem cBlock_says (hc : fn.cls = p.cls) (hx : fn.meth = p.meth) : ∀ {b : List NStmt}, NStmt.finish ∉ b →
    (∀ i ∈ b, ∀ a ∈ i.args, ∀ e ∈ a.entities, refersTo fn.decls e = some e) → (∀ i ∈ b, ∀ a ∈ i.args, a.Quotable) →
    (k = 0 → ∀ as, .call .PUSH_MORTAL as ∉ b) →
    (k = 0 → ∀ as, .call .LEAVE_SCOPE as ∈ b → as = [.sym .env, .sym .stack, .sym .objectVars, .sym .mortalStack, .sym .addrMortalTop, .num 0#32]) →
    ∀ {s : σ}, Inv M k s → runStmts (cStmt M rt fn) (b.flatMap (repStmt k)) s = runStmts (nStmt M rt p) b s ∧
      (runStmts (nStmt M rt p) b s).Ok (Inv M k) := by
  intro b
  induction b with
  | nil => intro _ _ _ _ _ s hs; exact ⟨rfl, hs⟩
  | cons i b ih =>
    intro hf hr hq hp hl s hs
    have hfi : i ≠ .finish := fun e => hf (by simp [e])
    have e := cStmt_says M hm rt p fn k hc hx hfi (hr i (by simp)) (hq i (by simp)) (fun hk as h => hl hk as (by simp [h])) hs
    have hinv := nStmt_inv M hm rt p k (i := i) (fun hk as h => hp hk as (by simp [h])) (fun hk as h => hl hk as (by simp [h])) hs
    rw [List.flatMap_cons, runStmts_append, e]
    simp only [runStmts]
    cases hn : nStmt M rt p i s with
    | fall s' =>
      rw [hn] at hinv
      exact ih (fun h => hf (by simp [h])) (fun i hi => hr i (by simp [hi])) (fun i hi => hq i (by simp [hi]))
        (fun hk as h => hp hk as (by simp [h])) (fun hk as h => hl hk as (by simp [h])) hinv
    | jump t s' => rw [hn] at hinv; exact ⟨rfl, hinv⟩
    | done s' => exact ⟨rfl, trivial⟩
    | bad => exact ⟨rfl, trivial⟩

/-- Two runs side by side: but for the last block, which falls in one and is done in the other. -/
theorem go_last {len : Nat} {f g : Nat → σ → Next σ} {P : σ → Prop} (h : ∀ pc, pc + 1 < len → ∀ s, P s → f pc s = g pc s ∧ (g pc s).Ok P)
    (hf : ∀ pc s, pc + 1 = len → f pc s = .fall s) (hg : ∀ pc s, pc + 1 = len → g pc s = .done s) :
    ∀ n pc, pc < len → ∀ s, P s → go len f .finished n pc s = go len g (fun _ => .bad) n pc s := by
  intro n
  induction n with
  | zero => intro pc _ s _; rfl
  | succ n ih =>
    intro pc hpc s hs
    by_cases hl : pc + 1 = len
    · simp only [go, hf pc s hl, hg pc s hl]
      rw [if_neg (by omega)]
    · have hl' : pc + 1 < len := by omega
      obtain ⟨e, hok⟩ := h pc hl' s hs
      simp only [go, e]
      cases hgp : g pc s with
      | fall s' =>
        rw [hgp] at hok
        simp only [if_pos hl']
        exact ih _ hl' _ hok
      | jump t s' =>
        rw [hgp] at hok
        by_cases ht : t.toNat < len
        · simp only [if_pos ht]; exact ih _ ht _ hok
        · simp only [if_neg ht]
      | _ => rfl

end

theorem sayBlocks_mem {rt : Runtime} {m : Code} : ∀ {ops : List Op} {pc : Nat} {bs : List (List NStmt)}, sayBlocks rt m pc ops = some bs →
    ∀ b ∈ bs, ∃ op pc', (vmCase op.id).mapM (sayStmt rt m pc' op) = some b := by
  intro ops
  induction ops with
  | nil => intro pc bs h; simp [sayBlocks] at h; subst h; simp
  | cons o ops ih =>
    intro pc bs h
    simp only [sayBlocks, Option.bind_eq_some_iff, Option.map_eq_some_iff] at h
    obtain ⟨b, hb, cs, hcs, rfl⟩ := h
    intro b' hb'
    rcases List.mem_cons.1 hb' with rfl | h'
    · exact ⟨o, pc, hb⟩
    · exact ih hcs b' h'

/-- What a loaded method mentions is found by its name. -/
theorem found {rt : Runtime} (hd : Distinct rt) {m : Code} {p : NProg} (h : says rt m = some p) :
    ∀ b ∈ p.blocks, ∀ e ∈ blockEnts b, (byName rt e).isSome := by
  simp only [says, Option.bind_eq_some_iff, Option.map_eq_some_iff] at h
  obtain ⟨b, hb, x, hx, bs, hbs, rfl⟩ := h
  intro blk hblk e he
  obtain ⟨op, pc, hop⟩ := sayBlocks_mem hbs blk hblk
  unfold blockEnts at he
  obtain ⟨a, ha, hea⟩ := List.mem_flatMap.1 he
  obtain ⟨v, _, hv⟩ := mapM_mem' (stmtArgs_says hop) a ha
  obtain ⟨y, _, hy⟩ := mapM_mem' (needs_says hv) e hea
  cases y <;> simp only [mentioned, Option.map_eq_some_iff, Option.bind_eq_some_iff] at hy
  case basicType c => obtain ⟨b, hb, rfl⟩ := hy; simp [byName, class_at hd hb]
  case classVar c k =>
    obtain ⟨b, hb, w, hw, rfl⟩ := hy
    have hn : (b.classVars.map id).Nodup := by simpa using hd.classVars b (mem_of_byIndex hb)
    have hf := findName_at (name := id) hn (byIndex_some hw)
    simp only [id] at hf
    simp [byName, class_at hd hb, hf]
  case fieldOffset c k =>
    obtain ⟨b, hb, w, hw, rfl⟩ := hy
    simp [byName, class_at hd hb, findName_at (hd.fields b (mem_of_byIndex hb)) (byIndex_some hw)]
  case method c k =>
    obtain ⟨b, hb, w, hw, rfl⟩ := hy
    simp [method_at hd hb hw]

end SPVM.Precomp
