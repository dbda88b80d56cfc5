import Verif.Lemmas.Safe

/-!
# Safety of the recursive part: operator chains, paths, containers
-/

set_option linter.unusedSectionVars false

namespace Over

/-- Length of a file. -/
def nodeLen (e : Str × Except Str Str) : Nat := match e.2 with | .ok s => s.length | .error _ => 0

/-- Total length of the files that are not being read. -/
def FS.sizeExcl (fs : FS) (stack : List Str) : Nat :=
  ((fs.nodes.filter (fun e => !stack.contains e.1)).map nodeLen).sum

variable [Unicode]

/-- The text consumed by `parse_value`. -/
def PvText (first : Bool) (brace : Option Char) (r r' : Str) : Prop :=
  ∃ txt, r = txt ++ r' ∧ if first then (∃ e, SpExpr e txt) ∧ ExprEnd brace r' else ∃ t, SpTerm t txt

/-- `pv` behaves like `parse_value` on inputs of size at most `n`. -/
def PvOk [PanicOk] (fs : FS) (main : Option Str × Str) (n : Nat) (pv : PV) : Prop :=
  ∀ (env : Env) (s : PState) (pairs : List Pair) (depth : Nat) (brace : Option Char) (first : Bool),
    EnvOk fs env → Src fs main env.file env.full → At env s → GoodPairs pairs → s.stream.rest ≠ [] →
    s.stream.rest.length + fs.sizeExcl env.stack ≤ n →
    wp (pv pairs s.stream.pos.line s.stream.pos.col depth brace first) s
      (fun v s' => At env s' ∧ Good v ∧ PvText first brace s.stream.rest s'.stream.rest) (ErrOk fs main)

section
variable [PanicOk]
variable {fs : FS} {main : Option Str × Str} {env : Env} {n : Nat} {pv : PV}

omit [PanicOk] in
theorem getOp_iff (c : Char) (op : BinOp) : getOp c = some op ↔ c = opChar op := by
  constructor
  · intro h
    simp only [getOp] at h
    split_ifs at h <;> cases h <;> assumption
  · rintro rfl
    cases op <;> decide

omit [PanicOk] in
theorem getOp_none_iff (c : Char) : getOp c = none ↔ isOpChar c = false := by
  rw [← Bool.not_eq_true, opChar_iff]
  constructor
  · intro h
    simp only [getOp] at h
    split_ifs at h
    tauto
  · intro h
    simp only [getOp]
    split_ifs <;> first | rfl | (exfalso; tauto)

omit [PanicOk] in
theorem popBack_snoc {α : Type} (l : List α) (h : l ≠ []) :
    ∃ front x, popBack l = some (front, x) ∧ l = front ++ [x] := by
  refine ⟨l.dropLast, l.getLast h, ?_, (List.dropLast_concat_getLast h).symm⟩
  simp [popBack, List.getLast?_eq_getLast_of_ne_nil h]

omit [PanicOk] in
theorem At.operandAt {s : PState} (ha : At env s) {t : Term} {tx r : Str} (h : s.stream.rest = tx ++ r)
    (ht : SpTerm t tx) : OperandAt env.full s.stream.pos.line s.stream.pos.col := by
  have := ha.here
  rw [h] at this
  exact this.operandAt ht

omit [PanicOk] in
theorem At.operandAtExpr {s : PState} (ha : At env s) {e : Expr} {tx r : Str} (h : s.stream.rest = tx ++ r)
    (ht : SpExpr e tx) : OperandAt env.full s.stream.pos.line s.stream.pos.col := by
  have := ha.here
  rw [h] at this
  exact this.operandAtExpr ht

/-- The operands collected so far. -/
def ValsOk (env : Env) (vals : List (Value × Nat × Nat)) : Prop :=
  ∀ x ∈ vals, Good x.1 ∧ OperandAt env.full x.2.1 x.2.2

theorem opLoop_spec (henv : EnvOk fs env) (hsrc : Src fs main env.file env.full) (hpv : PvOk fs main n pv)
    {pairs : List Pair} (hps : GoodPairs pairs) (depth : Nat) (brace : Option Char) (k : Nat) :
    ∀ (vals : List (Value × Nat × Nat)) (ops : List BinOp) (s : PState), At env s → ValsOk env vals →
    vals.length = ops.length + 1 → s.stream.rest.length + fs.sizeExcl env.stack ≤ n →
    s.stream.rest.length + 1 ≤ k →
    wp (opLoop pv pairs depth brace k vals ops) s (fun x s' => At env s' ∧ ValsOk env x.1 ∧
      x.1.length = x.2.length + 1 ∧ ∃ r txt, s.stream.rest = txt ++ s'.stream.rest ∧ SpOps r txt ∧
        (s'.stream.rest = [] ∨ ∃ c t, s'.stream.rest = c :: t ∧ getOp c = none)) (ErrOk fs main) := by
  induction k with
  | zero => intro _ _ s _ _ _ _ h; omega
  | succ k ih =>
    intro vals ops s ha hv hl hm hk
    unfold opLoop
    rw [wp_bind, wp_peekP]
    cases hr : s.stream.rest with
    | nil => exact ⟨ha, hv, hl, [], [], by simp [hr], .nil, .inl hr⟩
    | cons ch r =>
      simp only [List.head?_cons]
      have hh := ha.here
      rw [hr] at hh
      cases hop : getOp ch with
      | none => exact ⟨ha, hv, hl, [], [], by simp [hr], .nil, .inr ⟨ch, r, hr, hop⟩⟩
      | some op =>
        simp only
        rw [wp_bind, wp_nextP_cons hr, wp_bind, wp_peekP]
        have ha1 := ha.move hh.adv
        cases r with
        | nil => exact err_end hsrc ha1 rfl
        | cons c2 r2 =>
          simp only [List.head?_cons]
          rw [wp_bind, wp_getPos, wp_bind]
          simp only [hr, List.length_cons] at hm hk
          refine wp_mono (hpv env _ pairs depth brace false henv hsrc ha1 hps (by simp)
            (by simp only [List.length_cons]; omega)) ?_ (fun _ h => h)
          rintro v s2 ⟨ha2, hg, txt, htx, t, ht⟩
          simp only at htx
          have hop2 : OperandAt env.full (s.stream.pos.adv ch).line (s.stream.pos.adv ch).col := by
            have h := ha1.here
            simp only [htx] at h
            exact h.operandAt ht
          have hlen : s2.stream.rest.length ≤ r2.length := by
            have h1 := congrArg List.length htx
            have h2 := List.length_pos_iff.2 ht.ne_nil
            simp only [List.length_cons, List.length_append] at h1
            omega
          have htext : ∀ (s3 s' : PState), s3.stream = s2.stream →
              (∃ r txt, s3.stream.rest = txt ++ s'.stream.rest ∧ SpOps r txt ∧
                (s'.stream.rest = [] ∨ ∃ c t, s'.stream.rest = c :: t ∧ getOp c = none)) →
              ∃ r txt, ch :: c2 :: r2 = txt ++ s'.stream.rest ∧ SpOps r txt ∧
                (s'.stream.rest = [] ∨ ∃ c t, s'.stream.rest = c :: t ∧ getOp c = none) := by
            rintro s3 s' he ⟨r', txt', h1, h2, h3⟩
            rw [he] at h1
            refine ⟨.mk op t :: r', opChar op :: (txt ++ txt'), ?_, .cons ht h2, h3⟩
            rw [htx, h1, (getOp_iff ch op).1 hop]
            simp
          by_cases hpri : op.isPriority = true
          · simp only [hpri, if_true]
            obtain ⟨front, x, h1, h2⟩ := popBack_snoc vals (by rintro rfl; simp at hl)
            rw [h1]
            obtain ⟨val1, l1, c1⟩ := x
            simp only
            rw [wp_bind]
            have hx := hv (val1, l1, c1) (by simp [h2])
            refine wp_mono (binaryOp_spec hsrc ha2 hx.1 hg hop2) ?_ (fun _ h => h)
            rintro w s3 ⟨hw, hsame⟩
            have ha3 := hsame.at ha2
            refine wp_mono (ih _ _ s3 ha3 ?_ ?_ ?_ ?_) ?_ (fun _ h => h)
            · intro y hy
              rcases List.mem_append.1 hy with hy | hy
              · exact hv y (by rw [h2]; simp [hy])
              · simp only [List.mem_singleton] at hy
                subst hy; exact ⟨hw, hx.2⟩
            · rw [h2] at hl; simp only [List.length_append, List.length_singleton] at hl ⊢; exact hl
            · rw [hsame.stream]; omega
            · rw [hsame.stream]; omega
            · rintro y s' ⟨b1, b2, b3, b4⟩
              exact ⟨b1, b2, b3, htext s3 s' hsame.stream b4⟩
          · simp only [hpri]
            refine wp_mono (ih _ _ s2 ha2 ?_ ?_ ?_ ?_) ?_ (fun _ h => h)
            · intro y hy
              rcases List.mem_append.1 hy with hy | hy
              · exact hv y hy
              · simp only [List.mem_singleton] at hy
                subst hy; exact ⟨hg, hop2⟩
            · simp only [List.length_append, List.length_singleton]; omega
            · omega
            · omega
            · rintro y s' ⟨b1, b2, b3, b4⟩
              exact ⟨b1, b2, b3, htext s2 s' rfl b4⟩

theorem foldOps_spec (hsrc : Src fs main env.file env.full) : ∀ (vals : List (Value × Nat × Nat))
    (ops : List BinOp) (v : Value) (s : PState), At env s → Good v → ValsOk env vals →
    vals.length = ops.length →
    wp (foldOps v vals ops) s (fun w s' => Good w ∧ Same s s') (ErrOk fs main)
  | vals, [], v, s, ha, hg, hv, hl => by
    unfold foldOps
    exact ⟨hg, Same.refl s⟩
  | [], op :: ops, v, s, ha, hg, hv, hl => by simp at hl
  | (v2, l2, c2) :: vals, op :: ops, v, s, ha, hg, hv, hl => by
    unfold foldOps
    rw [wp_bind]
    have hx := hv (v2, l2, c2) (by simp)
    refine wp_mono (binaryOp_spec hsrc ha hg hx.1 hx.2) ?_ (fun _ h => h)
    rintro w s2 ⟨hw, hsame⟩
    refine wp_mono (foldOps_spec hsrc vals ops w s2 (hsame.at ha) hw
      (fun y hy => hv y (by simp [hy])) (by simpa using hl)) ?_ (fun _ h => h)
    rintro w' s' ⟨h1, h2⟩
    exact ⟨h1, hsame.trans h2⟩

omit [PanicOk] in
theorem exprEnd_of {brace : Option Char} {c : Char} (h1 : isValueEndChar c = true)
    (h2 : isEndDelimiter c = true → brace = some c) (h3 : getOp c = none) :
    isUniWhitespace c = true ∨ c = '#' ∨ (isEndDelimiter c = true ∧ brace = some c) := by
  rw [getOp_none_iff] at h3
  rw [valueEnd_iff] at h1
  rcases h1 with h1 | h1 | h1 | h1
  · exact .inl h1
  · exact .inr (.inl h1)
  · exact .inr (.inr ⟨h1, h2 h1⟩)
  · rw [h3] at h1; cases h1

theorem parseOps_spec (henv : EnvOk fs env) (hsrc : Src fs main env.file env.full)
    (hpv : PvOk fs main n pv) {pairs : List Pair} (hps : GoodPairs pairs) (depth : Nat)
    (brace : Option Char) {res : Value} (hres : Good res) {l c : Nat} (hp : OperandAt env.full l c)
    {s : PState} (ha : At env s) (hm : s.stream.rest.length + fs.sizeExcl env.stack ≤ n) :
    wp (parseOps pv pairs depth brace res l c) s (fun v s' => At env s' ∧ Good v ∧
      ∃ r txt, s.stream.rest = txt ++ s'.stream.rest ∧ SpOps r txt ∧ ExprEnd brace s'.stream.rest)
      (ErrOk fs main) := by
  unfold parseOps
  rw [wp_bind, wp_withBound]
  refine wp_mono (opLoop_spec henv hsrc hpv hps depth brace _ [(res, l, c)] [] s ha ?_ rfl hm
    (Nat.le_refl _)) ?_ (fun _ h => h)
  · intro x hx
    simp only [List.mem_singleton] at hx
    subst hx; exact ⟨hres, hp⟩
  · rintro ⟨vals, ops⟩ s2 ⟨ha2, hv, hl, r, txt, h1, h2, h3⟩
    simp only at hv hl ⊢
    rw [wp_bind]
    refine wp_mono (checkValueEnd_spec hsrc ha2) ?_ (fun _ h => h)
    rintro _ s3 ⟨rfl, h4⟩
    cases vals with
    | nil => simp at hl
    | cons x vals =>
      obtain ⟨v1, l1, c1⟩ := x
      simp only
      refine wp_mono (foldOps_spec hsrc vals ops v1 s3 ha2 (hv (v1, l1, c1) (by simp)).1
        (fun y hy => hv y (by simp [hy])) (by simpa using hl)) ?_ (fun _ h => h)
      rintro w s' ⟨h5, h6⟩
      refine ⟨h6.at ha2, h5, r, txt, by rw [h6.stream]; exact h1, h2, ?_⟩
      rw [h6.stream]
      rcases h4 with h4 | ⟨ch, t, h4, h7, h8⟩
      · exact .inl h4
      · right
        refine ⟨ch, t, h4, exprEnd_of h7 h8 ?_⟩
        rcases h3 with h3 | ⟨ch', t', h3, h9⟩
        · rw [h3] at h4; cases h4
        · rw [h3] at h4
          simp only [List.cons.injEq] at h4
          rw [← h4.1]; exact h9

theorem parseUnary_spec (henv : EnvOk fs env) (hsrc : Src fs main env.file env.full)
    (hpv : PvOk fs main n pv) {pairs : List Pair} (hps : GoodPairs pairs) (depth : Nat)
    (brace : Option Char) {s : PState} (ha : At env s) {c : Char} {r : Str} (hr : s.stream.rest = c :: r)
    {op : UnOp} (hc : (c = '-' ∧ op = .minus) ∨ (c = '+' ∧ op = .plus))
    (hm : s.stream.rest.length + fs.sizeExcl env.stack ≤ n + 1) :
    wp (parseUnary pv pairs depth brace op) s (fun v s' => At env s' ∧ Good v ∧
      ∃ t txt, s.stream.rest = txt ++ s'.stream.rest ∧ SpTerm t txt) (ErrOk fs main) := by
  unfold parseUnary
  rw [wp_bind, wp_nextP_cons hr]
  have hc' : (some c = some '-' ∧ op = .minus) ∨ (some c = some '+' ∧ op = .plus) := by
    simpa using hc
  simp only [hc', if_true]
  have hh := ha.here
  rw [hr] at hh
  have ha1 := ha.move hh.adv
  rw [wp_bind, wp_getPos, wp_bind, wp_peekP]
  cases r with
  | nil => exact err_end hsrc ha1 rfl
  | cons c2 r2 =>
    simp only [List.head?_cons]
    rw [wp_bind]
    simp only [hr, List.length_cons] at hm
    refine wp_mono (hpv env _ pairs (depth + 1) brace false henv hsrc ha1 hps (by simp)
      (by simp only [List.length_cons]; omega)) ?_ (fun _ h => h)
    rintro v s2 ⟨ha2, hg, txt, htx, t, ht⟩
    simp only at htx
    have hop2 : OperandAt env.full (s.stream.pos.adv c).line (s.stream.pos.adv c).col := by
      have h := ha1.here
      simp only [htx] at h
      exact h.operandAt ht
    refine wp_mono (unaryOp_spec hsrc ha2 hop2) ?_ (fun _ h => h)
    rintro w s' ⟨hw, hsame⟩
    refine ⟨hsame.at ha2, hw, ?_⟩
    rw [hsame.stream]
    rcases hc with ⟨rfl, rfl⟩ | ⟨rfl, rfl⟩
    · exact ⟨.neg t, '-' :: txt, by rw [hr, htx]; rfl, .neg ht⟩
    · exact ⟨.pos t, '+' :: txt, by rw [hr, htx]; rfl, .pos ht⟩

/-! ## Paths -/

omit [PanicOk] in
theorem varName_of_lookable {x : Str} {g : Bool} (h : Lookable x g)
    (hg : if g then ∃ n, x = '@' :: n ∧ ∀ d ∈ n, NameChar d else (∀ d ∈ x, NameChar d)) : VarName x := by
  cases g with
  | true =>
    simp only [if_true] at hg
    obtain ⟨n, rfl, hn⟩ := hg
    exact ⟨'@', n, rfl, .inr rfl, hn⟩
  | false =>
    simp only [Bool.false_eq_true, if_false] at hg
    rcases h.1 rfl with h | h
    · obtain ⟨c, cs, rfl, h1, h2, -⟩ := h
      exact ⟨c, cs, rfl, .inl h1, h2⟩
    · have key : ∀ (c : Char) (cs : Str), x = c :: cs → isAsciiAlpha c = true → VarName x := by
        rintro c cs rfl hc
        exact ⟨c, cs, rfl, .inl (.inl (by simp [isAlphabetic, hc])), fun d hd => hg d (by simp [hd])⟩
      simp only [reservedWords, List.tail_cons, List.mem_cons, List.not_mem_nil, or_false] at h
      rcases h with rfl | rfl | rfl | rfl | rfl | rfl | rfl <;> exact key _ _ rfl (by decide)

omit [PanicOk] in
theorem afterDot_of {dt : DotEnd} {r r' txt : Str} {t : Term} (hdt : dt ≠ .none) (h : AfterDot dt r)
    (he : r = txt ++ r') (ht : SpTerm t txt) : t.afterDot = true := by
  obtain ⟨c, tl, rfl, -, h1⟩ := ht.head
  rcases h1 with h1 | h1
  · exact h1
  · exfalso
    have hc : isValidFieldChar c true = true ∨ isNumericChar c = true ∨ c = '@' := by
      cases dt with
      | none => exact absurd rfl hdt
      | dot =>
        obtain ⟨d, t', h2, h3⟩ := h
        rw [he] at h2
        simp only [List.cons_append, List.cons.injEq] at h2
        rw [h2.1]
        simp only [Bool.or_eq_true] at h3
        tauto
      | dotGlobal =>
        obtain ⟨t', h2⟩ := h
        rw [he] at h2
        simp only [List.cons_append, List.cons.injEq] at h2
        exact .inr (.inr h2.1)
    rw [validFieldChar_true_iff, numericChar_iff] at hc
    rcases hc with (hc | hc) | (hc | hc | hc) | hc
    · have := hc.cases; char_omega
    all_goals char_omega

omit [PanicOk] in
theorem afterDot_ne {dt : DotEnd} {r : Str} (hdt : dt ≠ .none) (h : AfterDot dt r) : r ≠ [] := by
  cases dt with
  | none => exact absurd rfl hdt
  | dot => obtain ⟨c, t, rfl, -⟩ := h; simp
  | dotGlobal => obtain ⟨t, rfl⟩ := h; simp

theorem parseVariable_spec (henv : EnvOk fs env) (hsrc : Src fs main env.file env.full)
    (hpv : PvOk fs main n pv) (k : Nat) : ∀ (pairs : List Pair) (depth : Nat) (brace : Option Char)
    (s : PState), GoodPairs pairs → At env s → s.stream.rest ≠ [] →
    s.stream.rest.length + fs.sizeExcl env.stack ≤ n + 1 → s.stream.rest.length + 1 ≤ k →
    wp (parseVariable pv k pairs s.stream.pos.line s.stream.pos.col depth brace) s (fun v s' => At env s' ∧ Good v ∧
      ∃ t txt, s.stream.rest = txt ++ s'.stream.rest ∧ SpTerm t txt) (ErrOk fs main) := by
  induction k with
  | zero => intro _ _ _ s _ _ _ _ h; omega
  | succ k ih =>
    intro pairs depth brace s hps ha hne hm hk
    unfold parseVariable
    rw [wp_bind]
    apply wp_liftLex
    refine Lex.post_mono (lexVar_spec env.full _ _ ha.here hne) ?_ (fun kd hk => err_of_kind hsrc ha hk)
    rintro ⟨x, g, dt⟩ rest' p' ⟨txt, h1, h2, h3, h4, h5⟩
    simp only at h1 h2 h3 h4 h5 ⊢
    have hh := ha.here
    rw [h1] at hh
    have ha1 := ha.move (h3 ▸ hh.advs)
    rw [wp_bind]
    have hp : WordAt env.full x s.stream.pos.line s.stream.pos.col := by
      rw [h2, List.append_assoc] at hh
      exact hh.wordAt
    refine wp_mono (lookupVar_spec hsrc ha1 hps hp) ?_ (fun _ h => h)
    rintro v s1 ⟨hg, hsame, hlook⟩
    have ha2 := hsame.at ha1
    have hrest : s1.stream.rest = rest' := by rw [hsame.stream]
    have hvn : VarName x := by
      apply varName_of_lookable hlook
      cases g
      · simp only [Bool.false_eq_true, if_false] at h5 ⊢; exact h5.1
      · exact h5
    by_cases hdt : dt = .none
    · subst hdt
      simp only [if_true, List.append_nil] at h2
      subst h2
      exact ⟨ha2, hg, .name txt, txt, by rw [hrest]; exact h1, .name hvn⟩
    · simp only [hdt, if_false] at h2
      have hne' : rest' ≠ [] := afterDot_ne hdt h4
      have hpd : WordAt env.full (x ++ ['.']) s.stream.pos.line s.stream.pos.col := by
        rw [h2] at hh
        exact hh.wordAt
      have hlen : rest'.length + 1 ≤ s.stream.rest.length := by
        have := congrArg List.length h1
        rw [h2] at this
        simp only [List.length_append, List.length_singleton] at this
        omega
      have fin : ∀ (w : Value) (s' : PState) (t : Term) (tx : Str), rest' = tx ++ s'.stream.rest →
          SpTerm t tx → ∃ t txt, s.stream.rest = txt ++ s'.stream.rest ∧ SpTerm t txt := by
        intro w s' t tx e1 e2
        refine ⟨.dot x t, x ++ '.' :: tx, ?_, .dot hvn (afterDot_of hdt h4 e1 e2) e2⟩
        rw [h1, h2, e1]; simp
      cases dt with
      | none => exact absurd rfl hdt
      | dot | dotGlobal =>
        cases v with
        | arr i ty vs =>
          simp only
          rw [wp_bind, wp_getPos, wp_bind]
          refine wp_mono (hpv env s1 pairs (depth + 1) brace false henv hsrc ha2 hps (by rw [hrest]; exact hne')
            (by rw [hrest]; omega)) ?_ (fun _ h => h)
          rintro ix s3 ⟨ha3, hgx, tx, e1, t, e2⟩
          rw [hrest] at e1
          have hix : OperandAt env.full s1.stream.pos.line s1.stream.pos.col := by
            have h := ha2.here
            rw [hrest, e1] at h
            exact h.operandAt e2
          refine wp_mono (indexWith_spec hsrc ha3 (arrGet_total i ty vs (good_arr.1 hg).1)
            hix) ?_ (fun _ h => h)
          rintro w s' ⟨hw, rfl⟩
          exact ⟨ha3, hw, fin w s' t tx e1 e2⟩
        | tup i ty vs =>
          simp only
          rw [wp_bind, wp_getPos, wp_bind]
          refine wp_mono (hpv env s1 pairs (depth + 1) brace false henv hsrc ha2 hps (by rw [hrest]; exact hne')
            (by rw [hrest]; omega)) ?_ (fun _ h => h)
          rintro ix s3 ⟨ha3, hgx, tx, e1, t, e2⟩
          rw [hrest] at e1
          have hix : OperandAt env.full s1.stream.pos.line s1.stream.pos.col := by
            have h := ha2.here
            rw [hrest, e1] at h
            exact h.operandAt e2
          refine wp_mono (indexWith_spec hsrc ha3 (tupGet_total i ty vs (good_tup.1 hg).1)
            hix) ?_ (fun _ h => h)
          rintro w s' ⟨hw, rfl⟩
          exact ⟨ha3, hw, fin w s' t tx e1 e2⟩
        | obj o =>
          simp only
          rw [wp_bind, wp_getPos]
          have hgo : GoodPairs o.pairs := by
            cases o with | mk i ps par => exact (goodObj_mk.1 ((good_obj _).1 hg)).1
          rw [wp_ite]
          constructor
          · intro hd
            first
            | (exfalso; exact DotEnd.noConfusion hd)
            | (obtain ⟨t', h6⟩ := h4
               refine err_of_kind hsrc ha2 (.invalidValueChar ?_)
               have := ha2.here
               rw [hrest, h6] at this
               exact this.charAt)
          · intro _
            refine wp_mono (ih o.pairs (depth + 1) brace s1 hgo ha2
              (by rw [hrest]; exact hne') (by rw [hrest]; omega) (by rw [hrest]; omega)) ?_ (fun _ h => h)
            rintro w s' ⟨b1, b2, t, tx, e1, e2⟩
            rw [hrest] at e1
            exact ⟨b1, b2, fin w s' t tx e1 e2⟩
        | null => exact err_of_kind hsrc ha2 (.invalidDot hvn hpd)
        | bool _ => exact err_of_kind hsrc ha2 (.invalidDot hvn hpd)
        | int _ => exact err_of_kind hsrc ha2 (.invalidDot hvn hpd)
        | frac _ => exact err_of_kind hsrc ha2 (.invalidDot hvn hpd)
        | str _ => exact err_of_kind hsrc ha2 (.invalidDot hvn hpd)

end
end Over
