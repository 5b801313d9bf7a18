import Verif.Lemmas.PrecompTable
import Verif.Props.PrecompName

/-
The interpreter and the C code both do what the instructions with names say.
-/

namespace SPVM.Precomp

open Spec.Precomp Spec.PrecompName

/-! ## Lookups -/

theorem findName_at {α} {name : α → Name} : ∀ {l : List α} {i : Nat} {a : α}, (l.map name).Nodup → l[i]? = some a →
    findName name (name a) l = some (i, a) := by
  intro l
  induction l with
  | nil => intro i a _ h; simp at h
  | cons x l ih =>
    intro i a hn h
    rw [List.map_cons, List.nodup_cons] at hn
    cases i with
    | zero =>
      simp only [List.getElem?_cons_zero, Option.some.injEq] at h
      subst h
      simp [findName]
    | succ i =>
      simp only [List.getElem?_cons_succ] at h
      have hm : name a ∈ l.map name := List.mem_map.2 ⟨a, List.mem_of_getElem? h, rfl⟩
      have hne : name x ≠ name a := fun e => hn.1 (e ▸ hm)
      simp only [findName, if_neg hne, ih hn.2 h]
      rfl

theorem byIndex_some {α} {l : List α} {i : BitVec 32} {a : α} (h : byIndex l i = some a) : l[i.toNat]? = some a := by
  unfold byIndex at h
  split at h
  · simp at h
  · exact h

theorem class_at {rt : Runtime} (hd : Distinct rt) {i : BitVec 32} {b : Class} (h : byIndex rt i = some b) :
    findName Class.name b.name rt = some (i.toNat, b) := findName_at hd.classes (byIndex_some h)

theorem mem_of_byIndex {α} {l : List α} {i : BitVec 32} {a : α} (h : byIndex l i = some a) : a ∈ l :=
  List.mem_of_getElem? (byIndex_some h)

theorem method_at {rt : Runtime} (hd : Distinct rt) {i k : BitVec 32} {b : Class} {x : Method} (h : byIndex rt i = some b)
    (hx : byIndex b.methods k = some x) : byName rt (.method b.name x.name) = some (.method i.toNat k.toNat) := by
  simp only [byName, class_at hd h, Option.bind_some]
  rw [findName_at (hd.methods b (mem_of_byIndex h)) (byIndex_some hx)]
  rfl

/-! ## Lists of options -/

theorem mapM_conv {α α' β γ} {f : α → Option β} {g : α' → Option γ} {h : α → α'} {k : β → γ} {l : List α} {bs : List β}
    (H : ∀ a ∈ l, ∀ b, f a = some b → g (h a) = some (k b)) (hl : l.mapM f = some bs) : (l.map h).mapM g = some (bs.map k) := by
  induction l generalizing bs with
  | nil => simp at hl; subst hl; rfl
  | cons a l ih =>
    simp only [List.mapM_cons, Option.bind_eq_bind, Option.pure_def, Option.bind_eq_some_iff] at hl
    obtain ⟨b, hb, cs, hcs, e⟩ := hl
    simp only [Option.some.injEq] at e
    subst e
    simp only [List.map_cons, List.mapM_cons, H a (by simp) b hb, ih (fun a ha => H a (by simp [ha])) hcs, Option.bind_eq_bind,
      Option.pure_def, Option.bind_some]

theorem mapM_eq {α β γ} {f : α → Option β} {g : α → Option γ} {v : β → Option γ} {l : List α} {bs : List β}
    (H : ∀ a ∈ l, ∀ b, f a = some b → g a = v b) (hl : l.mapM f = some bs) : l.mapM g = bs.mapM v := by
  induction l generalizing bs with
  | nil => simp at hl; subst hl; rfl
  | cons a l ih =>
    simp only [List.mapM_cons, Option.bind_eq_bind, Option.pure_def, Option.bind_eq_some_iff] at hl
    obtain ⟨b, hb, cs, hcs, e⟩ := hl
    simp only [Option.some.injEq] at e
    subst e
    simp only [List.mapM_cons, H a (by simp) b hb, ih (fun a ha => H a (by simp [ha])) hcs]

theorem mapM_mem {α β} {f : α → Option β} {l : List α} {bs : List β} (hl : l.mapM f = some bs) :
    ∀ a ∈ l, ∃ b ∈ bs, f a = some b := by
  induction l generalizing bs with
  | nil => simp
  | cons a l ih =>
    simp only [List.mapM_cons, Option.bind_eq_bind, Option.pure_def, Option.bind_eq_some_iff] at hl
    obtain ⟨b, hb, cs, hcs, e⟩ := hl
    simp only [Option.some.injEq] at e
    subst e
    intro x hx
    rcases List.mem_cons.1 hx with rfl | hx
    · exact ⟨b, by simp, hb⟩
    · obtain ⟨c, hc, he⟩ := ih hcs x hx
      exact ⟨c, by simp [hc], he⟩

theorem mapM_total {α β} {f : α → Option β} {l : List α} (h : ∀ a ∈ l, ∃ b, f a = some b) : ∃ bs, l.mapM f = some bs := by
  induction l with
  | nil => exact ⟨[], rfl⟩
  | cons a l ih =>
    obtain ⟨b, hb⟩ := h a (by simp)
    obtain ⟨bs, hbs⟩ := ih (fun a ha => h a (by simp [ha]))
    exact ⟨b :: bs, by simp [List.mapM_cons, hb, hbs]⟩

theorem mapM_mem' {α β} {f : α → Option β} {l : List α} {bs : List β} (hl : l.mapM f = some bs) :
    ∀ b ∈ bs, ∃ a ∈ l, f a = some b := by
  induction l generalizing bs with
  | nil => simp at hl; subst hl; simp
  | cons a l ih =>
    simp only [List.mapM_cons, Option.bind_eq_bind, Option.pure_def, Option.bind_eq_some_iff] at hl
    obtain ⟨b, hb, cs, hcs, e⟩ := hl
    simp only [Option.some.injEq] at e
    subst e
    intro x hx
    rcases List.mem_cons.1 hx with rfl | hx
    · exact ⟨a, by simp, hb⟩
    · obtain ⟨c, hc, he⟩ := ih hcs x hx
      exact ⟨c, by simp [hc], he⟩

/-! ## The interpreter -/

theorem vArg_says {rt : Runtime} (hd : Distinct rt) {m : Code} {op : Op} {v : VArg} {a : NArg} (h : sayArg rt m op v = some a) :
    vArg rt m op v = a.value rt := by
  cases v <;> simp only [sayArg, vArg, Option.map_eq_some_iff, Option.bind_eq_some_iff, Option.some.injEq] at h ⊢
  case typeId k =>
    obtain ⟨b, hb, rfl⟩ := h
    simp [NArg.value, class_at hd hb]
  case basicType k =>
    obtain ⟨b, hb, rfl⟩ := h
    simp [NArg.value, byName, class_at hd hb, hb]
  case classVar c k =>
    obtain ⟨b, hb, w, hw, rfl⟩ := h
    have hn : (b.classVars.map id).Nodup := by simpa using hd.classVars b (mem_of_byIndex hb)
    have hf := findName_at (name := id) hn (byIndex_some hw)
    simp only [id] at hf
    simp [NArg.value, byName, class_at hd hb, hb, hw, hf]
  case fieldOffset c k =>
    obtain ⟨b, hb, w, hw, rfl⟩ := h
    simp [NArg.value, byName, class_at hd hb, hb, hw, findName_at (hd.fields b (mem_of_byIndex hb)) (byIndex_some hw)]
  case method c k =>
    obtain ⟨b, hb, w, hw, rfl⟩ := h
    simp [NArg.value, method_at hd hb hw, methodAt, hb, hw]
  case methodName c k => obtain ⟨x, hx, rfl⟩ := h; simp [NArg.value, hx]
  case methodClassName c k => obtain ⟨x, hx, b, hb, rfl⟩ := h; simp [NArg.value, hx, hb]
  case constData k => obtain ⟨x, hx, b, hb, rfl⟩ := h; simp [NArg.value, hx, hb]
  case constLength k => obtain ⟨x, hx, b, hb, rfl⟩ := h; simp [NArg.value, hx, hb]
  case constText k => obtain ⟨x, hx, b, hb, rfl⟩ := h; simp [NArg.value, hx, hb]
  case currentClass => obtain ⟨x, hx, rfl⟩ := h; simp [NArg.value, hx]
  case currentMethod => obtain ⟨x, hx, rfl⟩ := h; simp [NArg.value, hx]
  case currentFile => obtain ⟨x, hx, rfl⟩ := h; simp [NArg.value, hx]
  all_goals (subst h; rfl)

/-! ### The search -/

theorem search_ok (ops : List Op) (base : Nat) (x : Int) (dflt : BitVec 32) (tab : List (BitVec 32 × BitVec 32))
    (hcode : ∀ i, (h : i < tab.length) → ∃ op, ops[base + i]? = some op ∧ op.o1 = tab[i].1 ∧ op.o2 = tab[i].2)
    (hs : (tab.map fun c => c.1.toInt).Pairwise (· < ·)) : ∀ (fuel : Nat) (lo hi : Int), 0 ≤ lo → hi < tab.length → lo ≤ hi + 1 → hi - lo + 1 < fuel →
    (∀ i, (h : i < tab.length) → (i : Int) < lo → tab[i].1.toInt < x) → (∀ i, (h : i < tab.length) → hi < (i : Int) → x < tab[i].1.toInt) →
    (∃ c ∈ tab, c.1.toInt = x ∧ search ops base x dflt fuel lo hi = some c.2) ∨
      ((∀ c ∈ tab, c.1.toInt ≠ x) ∧ search ops base x dflt fuel lo hi = some dflt) := by
  have hlt : ∀ i j, (hi : i < tab.length) → (hj : j < tab.length) → i < j → tab[i].1.toInt < tab[j].1.toInt := by
    intro i j hi hj hij
    have := (List.pairwise_iff_getElem.1 hs) i j (by simpa using hi) (by simpa using hj) hij
    simpa using this
  intro fuel
  induction fuel with
  | zero => intro lo hi _ _ h1 h2; omega
  | succ fuel ih =>
    intro lo hi h0 hn hle hf hlow hhigh
    unfold search
    by_cases hx : hi < lo
    · rw [if_pos hx]
      refine Or.inr ⟨?_, rfl⟩
      intro c ht e
      obtain ⟨i, hi', he⟩ := List.mem_iff_getElem.1 ht
      have e : tab[i].1.toInt = x := by rw [he]; exact e
      by_cases h : (i : Int) < lo
      · have := hlow i hi' h; omega
      · have := hhigh i hi' (by omega); omega
    · rw [if_neg hx]
      have hmid : lo ≤ lo + (hi - lo) / 2 ∧ lo + (hi - lo) / 2 ≤ hi := by omega
      generalize hm : lo + (hi - lo) / 2 = mid at hmid ⊢
      have hmn : mid.toNat < tab.length := by omega
      have hmz : (mid.toNat : Int) = mid := by omega
      obtain ⟨op, hop, h1', h2'⟩ := hcode mid.toNat hmn
      simp only [hop, h1', h2']
      by_cases h1 : tab[mid.toNat].1.toInt < x
      · rw [if_pos h1]
        apply ih (mid + 1) hi (by omega) hn (by omega) (by omega) ?_ hhigh
        intro i hi' hlt'
        by_cases e : i = mid.toNat
        · subst e; exact h1
        · have := hlt i mid.toNat hi' hmn (by omega); omega
      · rw [if_neg h1]
        by_cases h2 : x < tab[mid.toNat].1.toInt
        · rw [if_pos h2]
          apply ih lo (mid - 1) h0 (by omega) (by omega) (by omega) hlow ?_
          intro i hi' hlt'
          by_cases e : i = mid.toNat
          · subst e; exact h2
          · have := hlt mid.toNat i hmn hi' (by omega); omega
        · rw [if_neg h2]
          exact Or.inl ⟨tab[mid.toNat], List.getElem_mem hmn, by omega, rfl⟩

theorem lookupSwitch_ok {ops : List Op} {pc : Nat} {len : Int} {cs : List (BitVec 32 × BitVec 32)} (hc : casesOf ops pc len.toNat = some cs)
    (hs : (cs.map fun c => c.1.toInt).Pairwise (· < ·)) (w dflt : BitVec 32) :
    lookupSwitch ops pc w.toInt len dflt = some (match cs.find? fun c => c.1 == w with | some c => c.2 | none => dflt) := by
  unfold casesOf at hc
  split at hc
  case isFalse => simp at hc
  case isTrue hle =>
  simp only [Option.some.injEq] at hc
  have hlen : cs.length = len.toNat := by rw [← hc]; simp; omega
  have hcode : ∀ i, (h : i < cs.length) → ∃ op, ops[pc + 1 + i]? = some op ∧ op.o1 = cs[i].1 ∧ op.o2 = cs[i].2 := by
    intro i h
    have hi : pc + 1 + i < ops.length := by omega
    refine ⟨ops[pc + 1 + i], by simp [hi], ?_⟩
    subst hc
    simp
  unfold lookupSwitch
  by_cases hl : len > 0
  · rw [if_pos hl]
    obtain ⟨a, ha, ha1, _⟩ := hcode 0 (by omega)
    obtain ⟨b, hb, hb1, _⟩ := hcode (len.toNat - 1) (by omega)
    simp only [Nat.add_zero] at ha
    simp only [ha, hb, ha1, hb1]
    have hlt : ∀ i j, (hi : i < cs.length) → (hj : j < cs.length) → i < j → cs[i].1.toInt < cs[j].1.toInt := by
      intro i j hi hj hij
      have := (List.pairwise_iff_getElem.1 hs) i j (by simpa using hi) (by simpa using hj) hij
      simpa using this
    have hres : (∃ c ∈ cs, c.1.toInt = w.toInt ∧ (if cs[0].1.toInt ≤ w.toInt ∧ w.toInt ≤ cs[len.toNat - 1].1.toInt then
          search ops (pc + 1) w.toInt dflt (len.toNat + 1) 0 (len - 1) else some dflt) = some c.2) ∨
        ((∀ c ∈ cs, c.1.toInt ≠ w.toInt) ∧ (if cs[0].1.toInt ≤ w.toInt ∧ w.toInt ≤ cs[len.toNat - 1].1.toInt then
          search ops (pc + 1) w.toInt dflt (len.toNat + 1) 0 (len - 1) else some dflt) = some dflt) := by
      split
      · exact search_ok ops (pc + 1) w.toInt dflt cs hcode hs (len.toNat + 1) 0 (len - 1) (by omega) (by omega) (by omega) (by omega)
          (by intro i _ h; omega) (by intro i h h'; omega)
      · next hno =>
        refine Or.inr ⟨?_, rfl⟩
        intro c hc' e
        obtain ⟨i, hi, he⟩ := List.mem_iff_getElem.1 hc'
        apply hno
        have e : cs[i].1.toInt = w.toInt := by rw [he]; exact e
        constructor
        · by_cases h0 : i = 0
          · subst h0; omega
          · have := hlt 0 i (by omega) hi (by omega); omega
        · by_cases h0 : i = len.toNat - 1
          · subst h0; omega
          · have := hlt i (len.toNat - 1) hi (by omega) (by omega); omega
    rcases hres with ⟨c, hcm, hcx, hr⟩ | ⟨hno, hr⟩
    · rw [hr]
      have hcw : c.1 = w := BitVec.eq_of_toInt_eq hcx
      cases hfind : cs.find? fun c => c.1 == w with
      | none =>
        have := List.find?_eq_none.1 hfind c hcm
        simp [hcw] at this
      | some c' =>
        have h1 := List.mem_of_find?_eq_some hfind
        have h2 := List.find?_some hfind
        simp only [beq_iff_eq] at h2
        obtain ⟨i, hi, he⟩ := List.mem_iff_getElem.1 hcm
        obtain ⟨j, hj, he'⟩ := List.mem_iff_getElem.1 h1
        have hij : i = j := by
          have e1 : cs[i].1.toInt = w.toInt := by rw [he]; exact hcx
          have e2 : cs[j].1.toInt = w.toInt := by rw [he', h2]
          rcases Nat.lt_trichotomy i j with h | h | h
          · have := hlt i j hi hj h; omega
          · exact h
          · have := hlt j i hj hi h; omega
        subst hij
        rw [← he, ← he']
    · rw [hr]
      have : cs.find? (fun c => c.1 == w) = none := by
        apply List.find?_eq_none.2
        intro c hc' e
        simp only [beq_iff_eq] at e
        exact hno c hc' (by rw [e])
      rw [this]
  · rw [if_neg hl]
    have : cs = [] := List.length_eq_zero_iff.1 (by omega)
    subst this
    rfl

/-- One statement in the interpreter. -/
theorem vStmt_says {σ} (M : Machine σ) {rt : Runtime} (hd : Distinct rt) {m : Code} {p : NProg} (hp : says rt m = some p) {pc : Nat} {op : Op}
    {v : VStmt} {i : NStmt} (h : sayStmt rt m pc op v = some i)
    (hs : ∀ v cs d, i = .switch v cs d → (cs.map fun c => c.1.toInt).Pairwise (· < ·)) (s : σ) :
    vStmt M rt m pc op v s = nStmt M rt p i s := by
  have hcur : currentMethod rt m = byName rt (.method p.cls p.meth) := by
    simp only [says, Option.bind_eq_some_iff, Option.map_eq_some_iff] at hp
    obtain ⟨b, hb, x, hx, bs, _, rfl⟩ := hp
    simp [currentMethod, methodAt, hb, hx, method_at hd hb hx]
  cases v <;> simp only [sayStmt, Option.map_eq_some_iff, Option.some.injEq] at h
  case call f args =>
    obtain ⟨as, has, rfl⟩ := h
    simp only [vStmt, nStmt, mapM_eq (v := NArg.value rt) (fun a _ b hb => vArg_says hd hb) has]
    cases as.mapM (NArg.value rt) <;> rfl
  case switch v n d =>
    obtain ⟨cs, hcs, rfl⟩ := h
    simp only [vStmt, nStmt, lookupSwitch_ok hcs (hs _ _ _ rfl)]
    cases cs.find? fun c => c.1 == M.int (op.get v) s <;> rfl
  all_goals (subst h; simp only [vStmt, nStmt, hcur])

theorem runStmts_congr {α β σ} {f : α → σ → Next σ} {g : β → σ → Next σ} {say : α → Option β} :
    ∀ {as : List α} {bs : List β}, as.mapM say = some bs → (∀ a ∈ as, ∀ b ∈ bs, say a = some b → ∀ s, f a s = g b s) →
    ∀ s, runStmts f as s = runStmts g bs s := by
  intro as
  induction as with
  | nil => intro bs h _ s; simp at h; subst h; rfl
  | cons a as ih =>
    intro bs h H s
    simp only [List.mapM_cons, Option.bind_eq_bind, Option.pure_def, Option.bind_eq_some_iff] at h
    obtain ⟨b, hb, cs, hcs, e⟩ := h
    simp only [Option.some.injEq] at e
    subst e
    simp only [runStmts, H a (by simp) b (by simp) hb s]
    cases nb : g b s with
    | fall s' => exact ih hcs (fun a ha c hc => H a (by simp [ha]) c (by simp [hc])) s'
    | _ => rfl

theorem sayBlocks_get {rt : Runtime} {m : Code} : ∀ {ops : List Op} {pc : Nat} {bs : List (List NStmt)}, sayBlocks rt m pc ops = some bs →
    bs.length = ops.length ∧ ∀ (i : Nat) op, ops[i]? = some op → ∃ b, bs[i]? = some b ∧ (vmCase op.id).mapM (sayStmt rt m (pc + i) op) = some b := by
  intro ops
  induction ops with
  | nil => intro pc bs h; simp [sayBlocks] at h; subst h; simp
  | cons o ops ih =>
    intro pc bs h
    simp only [sayBlocks, Option.bind_eq_some_iff, Option.map_eq_some_iff] at h
    obtain ⟨b, hb, cs, hcs, rfl⟩ := h
    obtain ⟨hl, hg⟩ := ih hcs
    refine ⟨by simp [hl], ?_⟩
    intro i op hop
    cases i with
    | zero => simp at hop; subst hop; exact ⟨b, rfl, hb⟩
    | succ i =>
      simp only [List.getElem?_cons_succ] at hop
      obtain ⟨b', h1, h2⟩ := hg i op hop
      refine ⟨b', by simpa using h1, ?_⟩
      rw [show pc + (i + 1) = pc + 1 + i by omega]
      exact h2

theorem go_congr {σ} {len : Nat} {f g : Nat → σ → Next σ} {e : σ → Res σ} (h : ∀ pc, pc < len → ∀ s, f pc s = g pc s) :
    ∀ n pc, pc < len → ∀ s, go len f e n pc s = go len g e n pc s := by
  intro n
  induction n with
  | zero => intro pc _ s; rfl
  | succ n ih =>
    intro pc hpc s
    simp only [go, h pc hpc s]
    cases g pc s with
    | fall s' =>
      by_cases hl : pc + 1 < len
      · simp only [if_pos hl]; exact ih _ hl _
      · simp only [if_neg hl]
    | jump t s' =>
      by_cases hl : t.toNat < len
      · simp only [if_pos hl]; exact ih _ hl _
      · simp only [if_neg hl]
    | _ => rfl

theorem runV_says {σ} (M : Machine σ) {rt : Runtime} (hd : Distinct rt) {m : Code} {p : NProg} (hp : says rt m = some p)
    (hs : ∀ v cs d, p.Has (.switch v cs d) → (cs.map fun c => c.1.toInt).Pairwise (· < ·)) (n : Nat) (s : σ) (hne : p.blocks ≠ []) :
    runV M rt m n s = runN M rt p n s := by
  have hp' := hp
  simp only [says, Option.bind_eq_some_iff, Option.map_eq_some_iff] at hp'
  obtain ⟨b, hb, x, hx, bs, hbs, e⟩ := hp'
  have e' : p.blocks = bs := by rw [← e]
  obtain ⟨hl, hg⟩ := sayBlocks_get hbs
  unfold runV runN
  rw [e', hl]
  have h0 : 0 < m.ops.length := by
    rw [← hl, ← e']
    exact List.length_pos_iff.2 hne
  apply go_congr _ n 0 h0 s
  intro pc hpc s
  have hop : m.ops[pc]? = some m.ops[pc] := by simp [hpc]
  obtain ⟨blk, h1, h2⟩ := hg pc _ hop
  rw [Nat.zero_add] at h2
  simp only [vBlock, nBlock, hop, e', h1]
  apply runStmts_congr h2
  intro v _ i hi hsay s
  apply vStmt_says M hd hp hsay
  intro v cs d hi'
  subst hi'
  exact hs v cs d ⟨blk, by rw [e']; exact List.mem_of_getElem? h1, hi⟩

end SPVM.Precomp
