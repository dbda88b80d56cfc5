import Verif.Lemmas.Safe4
import Verif.Spec.Eval

/-!
# The parser follows the evaluator

`sim m ev s Q`: from state `s` the parsing action `m` ends like the evaluation action `ev` from the
corresponding state: both succeed, in corresponding states and with results related by `Q`, or both
fail and the parse error reports the semantic error.
-/

set_option linter.unusedSectionVars false

namespace Over

/-- The part of the parser state that matters for evaluation. -/
def PState.est (s : PState) : ESt := ⟨s.globals, s.inc.cache, s.rt⟩

section rules
variable [PanicOk] {α β γ δ : Type} {s : PState}

/-- `m` ends like `ev`. -/
def sim (m : P α) (ev : EM β) (s : PState) (Q : α → β → PState → Prop) : Prop :=
  wp m s (fun a s' => ∃ b, ev s.est = .ok (b, s'.est) ∧ Q a b s')
    (fun er => ∃ se, ev s.est = .error se ∧ se.Reported er)

theorem sim_bind {m : P α} {f : α → P γ} {ev : EM β} {g : β → EM δ} {Q : α → β → PState → Prop}
    {R : γ → δ → PState → Prop} (h : sim m ev s Q)
    (hf : ∀ a b s', Q a b s' → sim (f a) (g b) s' R) : sim (m >>= f) (ev >>= g) s R := by
  unfold sim
  rw [wp_bind]
  refine wp_mono h ?_ ?_
  · rintro a s' ⟨b, he, hq⟩
    have h1 : (ev >>= g) s.est = g b s'.est := by simp [bind, EM.bind, he]
    rw [h1]
    exact hf a b s' hq
  · rintro e ⟨se, he, hr⟩
    exact ⟨se, by simp [bind, EM.bind, he], hr⟩

theorem sim_mono {m : P α} {ev : EM β} {Q R : α → β → PState → Prop} (h : sim m ev s Q)
    (hf : ∀ a b s', Q a b s' → R a b s') : sim m ev s R :=
  wp_mono h (fun a s' ⟨b, he, hq⟩ => ⟨b, he, hf a b s' hq⟩) (fun _ h => h)

/-- A step of the parser only. -/
theorem sim_left {m : P α} {f : α → P γ} {ev : EM δ} {R : γ → δ → PState → Prop}
    (h : wp m s (fun a s' => s'.est = s.est ∧ sim (f a) ev s' R) (fun _ => False)) :
    sim (m >>= f) ev s R := by
  unfold sim
  rw [wp_bind]
  refine wp_mono h ?_ (fun _ h => h.elim)
  rintro a s' ⟨he, hs⟩
  unfold sim at hs
  rw [he] at hs
  exact hs

/-- A pure step at the end of the evaluator only. -/
theorem sim_right {m : P α} {ev : EM β} {h : β → δ} {Q : α → β → PState → Prop}
    {R : α → δ → PState → Prop} (hs : sim m ev s Q) (hf : ∀ a b s', Q a b s' → R a (h b) s') :
    sim m (ev >>= fun b => pure (h b)) s R := by
  refine wp_mono hs ?_ ?_
  · rintro a s' ⟨b, he, hq⟩
    exact ⟨h b, by simp [bind, EM.bind, he, pure], hf a b s' hq⟩
  · rintro e ⟨se, he, hr⟩
    exact ⟨se, by simp [bind, EM.bind, he], hr⟩

theorem EM.bind_pure (ev : EM β) : (ev >>= pure) = ev := by
  funext st
  show EM.bind ev pure st = ev st
  unfold EM.bind
  cases ev st <;> rfl

/-- A further pure step at the end of the parser only. -/
theorem sim_last {m : P α} {f : α → P γ} {ev : EM β} {Q : α → β → PState → Prop}
    {R : γ → β → PState → Prop} (hs : sim m ev s Q)
    (hf : ∀ a b s', Q a b s' → sim (f a) (pure b : EM β) s' R) : sim (m >>= f) ev s R := by
  rw [← EM.bind_pure ev]
  exact sim_bind hs hf

/-- Facts about the parser's results can be added. -/
theorem sim_wp {m : P α} {ev : EM β} {Q : α → β → PState → Prop} {Q' : α → PState → Prop}
    {E : ParseError → Prop} (h : sim m ev s Q) (h' : wp m s Q' E) :
    sim m ev s (fun a b s' => Q a b s' ∧ Q' a s') :=
  wp_mono (wp_and h h') (fun _ _ ⟨⟨b, he, hq⟩, hq'⟩ => ⟨b, he, hq, hq'⟩) (fun _ h => h.1)

theorem sim_pure {a : α} {b : β} {Q : α → β → PState → Prop} (h : Q a b s) :
    sim (pure a) (pure b) s Q := ⟨b, rfl, h⟩

theorem sim_fail {k : Kind} {file : Option Str} {sk : SemKind} {Q : α → β → PState → Prop}
    (hf : s.stream.file = file) (h : sk.Reported k) : sim (fail k) (EM.fail file sk) s Q := by
  refine ⟨.sem file sk, rfl, ?_⟩
  rw [hf]
  exact .sem h

theorem sim_getPos {f : Pos → P γ} {ev : EM δ} {R : γ → δ → PState → Prop}
    (h : sim (f s.stream.pos) ev s R) : sim (getPos >>= f) ev s R := sim_left ⟨rfl, h⟩

theorem sim_peekP {f : Option Char → P γ} {ev : EM δ} {R : γ → δ → PState → Prop}
    (h : sim (f s.stream.rest.head?) ev s R) : sim (peekP >>= f) ev s R := sim_left ⟨rfl, h⟩

theorem sim_nextP {f : Option Char → P γ} {ev : EM δ} {R : γ → δ → PState → Prop} {c : Char} {r : Str}
    (hr : s.stream.rest = c :: r)
    (h : sim (f (some c)) ev { s with stream := { s.stream with rest := r, pos := s.stream.pos.adv c } } R) :
    sim (nextP >>= f) ev s R := by
  refine sim_left ?_
  rw [wp_nextP_cons hr]
  exact ⟨rfl, h⟩

theorem sim_expectP {f : Unit → P γ} {ev : EM δ} {R : γ → δ → PState → Prop} {c : Char} {r : Str}
    (hr : s.stream.rest = c :: r)
    (h : sim (f ()) ev { s with stream := { s.stream with rest := r, pos := s.stream.pos.adv c } } R) :
    sim (expectP c >>= f) ev s R := by
  refine sim_left ?_
  rw [wp_expectP hr]
  exact ⟨rfl, h⟩

theorem sim_withBound {f : Nat → P α} {ev : EM β} {R : α → β → PState → Prop}
    (h : sim (f (s.stream.rest.length + 1)) ev s R) : sim (withBound f) ev s R := h

theorem sim_genId {Q : Nat → Nat → PState → Prop}
    (h : Q s.rt.curId s.rt.curId { s with rt := s.rt.after { s.rt.toShared with curId := s.rt.curId + 1 } }) :
    sim genId EM.fresh s Q := ⟨s.rt.curId, rfl, h⟩

theorem sim_liftLex {f : Str → Pos → Lex α} {g : α → P γ} {ev : EM δ} {R : γ → δ → PState → Prop}
    {a : α} {rest : Str} {pos : Pos} (hl : f s.stream.rest s.stream.pos = .ok a rest pos)
    (h : sim (g a) ev { s with stream := { s.stream with rest := rest, pos := pos } } R) :
    sim (liftLex f >>= g) ev s R := by
  refine sim_left ?_
  apply wp_liftLex
  rw [hl]
  exact ⟨rfl, h⟩

end rules

section
variable [Unicode] [PanicOk]
variable {fs : FS} {main : Option Str × Str} {env : Env} {n : Nat} {pv : PV}

theorem findCharP_gap {γ δ : Type} {f : Bool → P γ} {ev : EM δ} {R : γ → δ → PState → Prop} {s : PState}
    (ha : At env s) {g : Str} (hg : Gap g) {c : Char} {r : Str} (hr : s.stream.rest = g ++ c :: r)
    (h1 : isUniWhitespace c = false) (h2 : c ≠ '#')
    (h : ∀ s', At env s' → s'.stream.rest = c :: r → sim (f true) ev s' R) :
    sim (findCharP >>= f) ev s R := by
  refine sim_left ?_
  rw [wp_findCharP]
  have hf : findCharGo false s.stream.rest s.stream.pos = (true, c :: r, s.stream.pos.advs g) := by
    rw [hr, findCharGo_gap hg, findCharGo_stop h1 h2]
  simp only [Stream.findChar, hf]
  refine ⟨rfl, h _ (ha.move ?_) rfl⟩
  have := ha.here
  rw [hr] at this
  exact this.advs

theorem findCharP_end {γ δ : Type} {f : Bool → P γ} {ev : EM δ} {R : γ → δ → PState → Prop} {s : PState}
    (ha : At env s) (hg : EndGap s.stream.rest)
    (h : ∀ s', At env s' → s'.stream.rest = [] → sim (f false) ev s' R) :
    sim (findCharP >>= f) ev s R := by
  refine sim_left ?_
  rw [wp_findCharP]
  have hf := findCharGo_endGap hg s.stream.pos
  simp only [Stream.findChar, hf]
  refine ⟨rfl, h _ (ha.move ?_) rfl⟩
  have := ha.here
  rw [← List.append_nil s.stream.rest] at this
  exact this.advs

/-! ## Operators -/

theorem binaryOp_sim {s : PState} (ha : At env s) (a b : Value) (op : BinOp) (l c : Nat) :
    sim (binaryOp a b op l c) (applyBin env.file op a b) s (fun v w s' => v = w ∧ Same s s') := by
  rw [binaryOp_eq]
  unfold applyBin
  cases binSem op a b with
  | val v => exact sim_pure ⟨rfl, Same.refl s⟩
  | newArr t vs =>
    refine sim_bind (sim_genId (Q := fun i j s' => i = j ∧ Same s s') ⟨rfl, rfl, rfl, rfl⟩) ?_
    rintro i _ s' ⟨rfl, h⟩
    exact sim_pure ⟨rfl, h⟩
  | bad t1 t2 => exact sim_fail ha.file .binary
  | divisionByZero => exact sim_fail ha.file .divisionByZero

theorem unaryOp_sim {s : PState} (ha : At env s) (a : Value) (op : UnOp) (l c : Nat) :
    sim (unaryOp a op l c) (applyUn env.file op a) s (fun v w s' => v = w ∧ s' = s) := by
  rw [unaryOp_eq]
  unfold applyUn
  cases op <;> cases a <;> first | exact sim_pure ⟨rfl, rfl⟩ | exact sim_fail ha.file .unary

theorem foldOps_sim : ∀ (sums : List (BinOp × Value)) (vals : List (Value × Nat × Nat)) (v : Value)
    (s : PState), At env s → vals.map Prod.fst = sums.map Prod.snd →
    sim (foldOps v vals (sums.map Prod.fst)) (sumLeft env.file v sums) s
      (fun v w s' => v = w ∧ Same s s')
  | [], vals, v, s, ha, hv => by
    simp only [List.map_nil]
    unfold foldOps sumLeft
    exact sim_pure ⟨rfl, Same.refl s⟩
  | (op, w) :: sums, [], v, s, ha, hv => by simp at hv
  | (op, w) :: sums, (v2, l2, c2) :: vals, v, s, ha, hv => by
    simp only [List.map_cons, List.cons.injEq] at hv ⊢
    obtain ⟨rfl, hv⟩ := hv
    unfold foldOps sumLeft
    refine sim_bind (binaryOp_sim ha v v2 op l2 c2) ?_
    rintro u _ s' ⟨rfl, hs⟩
    refine sim_mono (foldOps_sim sums vals u s' (hs.at ha) hv) ?_
    rintro x _ s2 ⟨rfl, hs2⟩
    exact ⟨rfl, hs.trans hs2⟩

/-! ## Names and indices -/

theorem forceSentinel_sim {s : PState} (k : IncKind) :
    sim (forceSentinel k) (EM.keywordId k) s (fun i j s' => i = j ∧ Same s s') := by
  obtain ⟨st, gl, inc, ⟨⟨ci, o1, o2, o3, o4⟩, t, oth, mo⟩⟩ := s
  cases k
  · cases o1 <;> exact ⟨_, rfl, rfl, rfl, rfl, rfl⟩
  · cases o2 <;> exact ⟨_, rfl, rfl, rfl, rfl, rfl⟩
  · cases o3 <;> exact ⟨_, rfl, rfl, rfl, rfl, rfl⟩
  · cases o4 <;> exact ⟨_, rfl, rfl, rfl, rfl, rfl⟩

theorem lookupVar_sim {s : PState} (ha : At env s) (pairs : List Pair) (x : Str) (l c : Nat) :
    sim (lookupVar pairs x (isGlobalName x) l c) (evalName env.file pairs x) s
      (fun v w s' => v = w ∧ Same s s') := by
  unfold lookupVar evalName
  simp only [beq_iff_eq]
  have sent : ∀ k : IncKind, sim (do let i ← forceSentinel k; pure (.obj (Obj.empty i)) : P Value)
      (do let i ← EM.keywordId k; pure (.obj (.mk i [] none)) : EM Value) s
      (fun v w s' => v = w ∧ Same s s') := by
    intro k
    refine sim_bind (forceSentinel_sim k) ?_
    rintro i _ s' ⟨rfl, h⟩
    exact sim_pure ⟨rfl, h⟩
  by_cases h : x = c!"null"
  · rw [if_pos h, if_pos h]; exact sim_pure ⟨rfl, Same.refl s⟩
  rw [if_neg h, if_neg h]
  by_cases h : x = c!"true"
  · rw [if_pos h, if_pos h]; exact sim_pure ⟨rfl, Same.refl s⟩
  rw [if_neg h, if_neg h]
  by_cases h : x = c!"false"
  · rw [if_pos h, if_pos h]; exact sim_pure ⟨rfl, Same.refl s⟩
  rw [if_neg h, if_neg h]
  by_cases h : x = c!"Obj"
  · rw [if_pos h, if_pos h]; exact sent .obj
  rw [if_neg h, if_neg h]
  by_cases h : x = c!"Str"
  · rw [if_pos h, if_pos h]; exact sent .str
  rw [if_neg h, if_neg h]
  by_cases h : x = c!"Arr"
  · rw [if_pos h, if_pos h]; exact sent .arr
  rw [if_neg h, if_neg h]
  by_cases h : x = c!"Tup"
  · rw [if_pos h, if_pos h]; exact sent .tup
  rw [if_neg h, if_neg h]
  by_cases h : x = c!"@"
  · rw [if_pos h, if_pos h, h]; exact sim_fail ha.file .loneAt
  rw [if_neg h, if_neg h]
  by_cases h : x.head? = some '@'
  · have h' : isGlobalName x = true := by simp [isGlobalName, h]
    rw [if_pos h', if_pos h]
    unfold lookupGlobal evalGlobal sim wp
    simp only [PState.est]
    cases hg : StrMap.get s.globals x with
    | some v => exact ⟨v, rfl, rfl, Same.refl s⟩
    | none =>
      refine ⟨_, rfl, ?_⟩
      rw [ha.file]
      exact .sem .globalNotFound
  · have h' : ¬ isGlobalName x = true := by simp [isGlobalName, h]
    rw [if_neg h', if_neg h]
    unfold findPair
    cases List.find? (fun p => p.field == x) pairs with
    | some p => exact sim_pure ⟨rfl, Same.refl s⟩
    | none => exact sim_fail ha.file .variableNotFound

theorem arrGet_eq (i : Nat) (t : Ty) (vs : List Value) (k : Nat) :
    Arr.get ⟨i, t, vs⟩ k = some (match vs[k]? with
      | some v => .ok v
      | none => .error (.arrOutOfBounds k)) := by
  simp only [Arr.get]
  by_cases h : k ≥ vs.length
  · rw [if_pos h, List.getElem?_eq_none h]
  · rw [if_neg h, List.getElem?_eq_getElem (by omega)]
theorem tupGet_eq (i : Nat) (t : List Ty) (vs : List Value) (k : Nat) :
    Tup.get ⟨i, t, vs⟩ k = some (match vs[k]? with
      | some v => .ok v
      | none => .error (.tupOutOfBounds k)) := by
  simp only [Tup.get]
  by_cases h : k ≥ vs.length
  · rw [if_pos h, List.getElem?_eq_none h]
  · rw [if_neg h, List.getElem?_eq_getElem (by omega)]

theorem indexWith_sim {s : PState} (ha : At env s) (get : Nat → Option (Except OverError Value))
    (oob : Nat → OverError) (vs : List Value)
    (hg : ∀ k, get k = some (match vs[k]? with | some v => .ok v | none => .error (oob k)))
    (v : Value) (l c : Nat) :
    sim (indexWith get v l c) (evalIndex env.file oob vs v) s (fun v w s' => v = w ∧ s' = s) := by
  cases v with
  | int i =>
    simp only [indexWith, evalIndex, toUsize]
    by_cases h : 0 ≤ i ∧ i < 2 ^ 64
    · rw [if_pos h, if_pos h]
      simp only [hg]
      cases vs[i.toNat]? with
      | some v => exact sim_pure ⟨rfl, rfl⟩
      | none => exact sim_fail ha.file .api
    · rw [if_neg h, if_neg h]
      exact sim_fail ha.file .invalidIndex
  | _ => exact sim_fail ha.file .expectedType

/-! ## Values -/

/-- The number of files that are not being read. -/
def FS.filesExcl (fs : FS) (stack : List Str) : Nat :=
  (fs.nodes.filter (fun e => !stack.contains e.1)).length

/-- The parser ends with this value of the tree in front of `rest'`. -/
def Ends (env : Env) (rest' : Str) (v w : Value) (s' : PState) : Prop :=
  v = w ∧ At env s' ∧ Good v ∧ s'.stream.rest = rest'

/-- `pv` follows the evaluator on inputs of size at most `n`. -/
def PvSim (fs : FS) (main : Option Str × Str) (n : Nat) (pv : PV) : Prop :=
  ∀ (env : Env) (s : PState) (pairs : List Pair) (depth : Nat) (brace : Option Char) (K : Nat)
    (txt rest' : Str),
    EnvOk fs env → Src fs main env.file env.full → At env s → GoodPairs pairs →
    s.stream.rest.length + fs.sizeExcl env.stack ≤ n → fs.filesExcl env.stack ≤ K →
    s.stream.rest = txt ++ rest' →
    (∀ t, SpTerm t txt → Follow rest' →
      sim (pv pairs s.stream.pos.line s.stream.pos.col depth brace false)
        (evalTerm fs env.file env.stack (loadN fs K) t pairs depth) s (Ends env rest')) ∧
    (∀ e, SpExpr e txt → ExprEnd brace rest' →
      sim (pv pairs s.stream.pos.line s.stream.pos.col depth brace true)
        (evalExpr fs env.file env.stack (loadN fs K) e pairs depth) s (Ends env rest'))

omit [PanicOk] in
theorem ExprEnd.follow {brace : Option Char} {r : Str} (h : ExprEnd brace r) : Follow r := by
  rcases h with h | ⟨c, t, h, h2⟩
  · exact .inl h
  · refine .inr ⟨c, t, h, ?_⟩
    simp only [isValueEndChar, isWhitespace, Bool.or_eq_true, beq_iff_eq]
    tauto

omit [PanicOk] in
theorem ExprEnd.noOp {brace : Option Char} {c : Char} {r : Str} (h : ExprEnd brace (c :: r)) :
    getOp c = none := by
  rw [getOp_none_iff]
  rcases h with h | ⟨d, t, h, h2⟩
  · cases h
  · simp only [List.cons.injEq] at h
    obtain ⟨rfl, -⟩ := h
    rw [← Bool.not_eq_true, opChar_iff]
    rcases h2 with h2 | h2 | ⟨h2, -⟩
    · rintro (rfl | rfl | rfl | rfl | rfl) <;> revert h2 <;> decide
    · subst h2; decide
    · rintro (rfl | rfl | rfl | rfl | rfl) <;> revert h2 <;> decide

omit [PanicOk] in
theorem SpOps.follow {r : List OpTerm} {u rest' : Str} {brace : Option Char} (h : SpOps r u)
    (he : ExprEnd brace rest') : Follow (u ++ rest') := by
  cases h with
  | nil => exact he.follow
  | @cons op t r s u _ _ =>
    refine .inr ⟨opChar op, _, rfl, ?_⟩
    cases op <;> decide

theorem opLoop_sim (henv : EnvOk fs env) (hsrc : Src fs main env.file env.full) (hpv : PvSim fs main n pv)
    {pairs : List Pair} (hps : GoodPairs pairs) (depth : Nat) (brace : Option Char) {K : Nat}
    (hK : fs.filesExcl env.stack ≤ K) {rest' : Str} (hend : ExprEnd brace rest') (k : Nat) :
    ∀ (r : List OpTerm) (u : Str) (front : List (Value × Nat × Nat)) (v : Value) (l c : Nat)
      (ops : List BinOp) (s : PState), At env s → SpOps r u → s.stream.rest = u ++ rest' →
    s.stream.rest.length + fs.sizeExcl env.stack ≤ n → s.stream.rest.length + 1 ≤ k →
    sim (opLoop pv pairs depth brace k (front ++ [(v, l, c)]) ops)
      (evalChain fs env.file env.stack (loadN fs K) r v pairs depth) s
      (fun x y s' => At env s' ∧ s'.stream.rest = rest' ∧
        x.1.map Prod.fst = front.map Prod.fst ++ y.1 :: y.2.map Prod.snd ∧
        x.2 = ops ++ y.2.map Prod.fst) := by
  induction k with
  | zero => intro _ _ _ _ _ _ _ s _ _ _ _ h; omega
  | succ k ih =>
    intro r u front v l c ops s ha hu hr hm hk
    unfold opLoop
    refine sim_peekP ?_
    cases hu with
    | nil =>
      simp only [List.nil_append] at hr
      have done : sim (pure (front ++ [(v, l, c)], ops) : P _)
          (evalChain fs env.file env.stack (loadN fs K) [] v pairs depth) s
          (fun x y s' => At env s' ∧ s'.stream.rest = rest' ∧
            x.1.map Prod.fst = front.map Prod.fst ++ y.1 :: y.2.map Prod.snd ∧
            x.2 = ops ++ y.2.map Prod.fst) := by
        unfold evalChain
        exact sim_pure ⟨ha, hr, by simp, by simp⟩
      have hz : (s.stream.rest.head? = none) ∨ ∃ d, s.stream.rest.head? = some d ∧ getOp d = none := by
        rw [hr]
        revert hend
        cases rest' with
        | nil => exact fun _ => .inl rfl
        | cons d t => exact fun hend => .inr ⟨d, rfl, hend.noOp⟩
      rcases hz with hz | ⟨d, hz, hd⟩
      · rw [hz]; exact done
      · simp only [hz, hd]; exact done
    | @cons op t r s0 u ht hu =>
      have hr' : s.stream.rest = opChar op :: (s0 ++ (u ++ rest')) := by rw [hr]; simp
      simp only [hr', List.head?_cons, (getOp_iff _ _).2 rfl]
      refine sim_nextP hr' (sim_peekP ?_)
      have hh := ha.here
      rw [hr'] at hh
      have ha1 := ha.move hh.adv
      obtain ⟨d, tl, hd, -⟩ := ht.head
      simp only [hd, List.cons_append, List.head?_cons]
      refine sim_getPos ?_
      unfold evalChain
      have hl : (s0 ++ (u ++ rest')).length + 1 = s.stream.rest.length := by rw [hr']; simp
      have h1 := (hpv env _ pairs depth brace K s0 (u ++ rest') henv hsrc ha1 hps (by
        show (s0 ++ (u ++ rest')).length + _ ≤ n; omega) hK rfl).1 t ht (hu.follow hend)
      simp only [hd, List.cons_append] at h1 ⊢
      refine sim_bind h1 ?_
      rintro w _ s2 ⟨rfl, ha2, -, hr2⟩
      have hl2 : s2.stream.rest.length + 1 ≤ s.stream.rest.length := by
        rw [hr2, hr']; simp only [List.length_append, List.length_cons]; omega
      have hpt : op.tight = op.isPriority := by cases op <;> rfl
      rw [hpt]
      by_cases hop : op.isPriority = true
      · rw [if_pos hop, if_pos hop]
        have hpb : popBack (front ++ [(v, l, c)]) = some (front, (v, l, c)) := by simp [popBack]
        rw [hpb]
        simp only
        refine sim_bind (binaryOp_sim ha2 v w op _ _) ?_
        rintro x _ s3 ⟨rfl, hsame⟩
        have e3 : s3.stream = s2.stream := hsame.stream
        exact ih r u front x l c ops s3 (hsame.at ha2) hu (by rw [e3, hr2]) (by rw [e3]; omega)
          (by rw [e3]; omega)
      · rw [if_neg hop, if_neg hop]
        refine sim_right (ih r u (front ++ [(v, l, c)]) w _ _ (ops ++ [op]) s2 ha2 hu hr2 (by omega)
          (by omega)) ?_
        rintro ⟨x1, x2⟩ ⟨y1, y2⟩ s3 ⟨b1, b2, b3, b4⟩
        refine ⟨b1, b2, ?_, ?_⟩
        · simp only at b3 ⊢; rw [b3]; simp
        · simp only at b4 ⊢; rw [b4]; simp

theorem checkValueEnd_sim {γ δ : Type} {f : Unit → P γ} {ev : EM δ} {R : γ → δ → PState → Prop}
    {s : PState} {brace : Option Char} (hend : ExprEnd brace s.stream.rest) (h : sim (f ()) ev s R) :
    sim (checkValueEnd brace >>= f) ev s R := by
  refine sim_left ?_
  unfold checkValueEnd
  rw [wp_bind, wp_peekP]
  rcases hend with h1 | ⟨c, r, h1, h2⟩
  · rw [h1]; exact ⟨rfl, h⟩
  · simp only [h1, List.head?_cons]
    rw [wp_bind, wp_getPos]
    have hv : isValueEndChar c = true := by
      simp only [isValueEndChar, isWhitespace, Bool.or_eq_true, beq_iff_eq]; tauto
    rw [if_pos hv]
    have hn : ¬ (isEndDelimiter c && !(some c == brace)) = true := by
      simp only [Bool.and_eq_true, Bool.not_eq_true', beq_eq_false_iff_ne, ne_eq, not_and, not_not]
      intro hd
      rcases h2 with h2 | h2 | ⟨-, h2⟩
      · exfalso
        simp only [isEndDelimiter, Bool.or_eq_true, beq_iff_eq] at hd
        rcases hd with ((rfl | rfl) | rfl) | rfl <;> revert h2 <;> decide
      · subst h2; exact absurd hd (by decide)
      · exact h2.symm
    rw [if_neg hn]
    exact ⟨rfl, h⟩

theorem parseOps_sim (henv : EnvOk fs env) (hsrc : Src fs main env.file env.full)
    (hpv : PvSim fs main n pv) {pairs : List Pair} (hps : GoodPairs pairs) (depth : Nat)
    (brace : Option Char) {K : Nat} (hK : fs.filesExcl env.stack ≤ K) {rest' : Str}
    (hend : ExprEnd brace rest') {r : List OpTerm} {u : Str} (hu : SpOps r u) (v : Value) (l c : Nat)
    {s : PState} (ha : At env s) (hr : s.stream.rest = u ++ rest')
    (hm : s.stream.rest.length + fs.sizeExcl env.stack ≤ n) :
    sim (parseOps pv pairs depth brace v l c)
      (do
        let (p, sums) ← evalChain fs env.file env.stack (loadN fs K) r v pairs depth
        sumLeft env.file p sums) s (fun v w s' => v = w ∧ At env s' ∧ s'.stream.rest = rest') := by
  unfold parseOps
  refine sim_bind (sim_withBound (opLoop_sim henv hsrc hpv hps depth brace hK hend _ r u [] v l c [] s ha hu
    hr hm (Nat.le_refl _))) ?_
  rintro ⟨vals, ops⟩ ⟨p, sums⟩ s1 ⟨ha1, hr1, hv, ho⟩
  simp only [List.map_nil, List.nil_append] at hv ho
  refine checkValueEnd_sim (by rw [hr1]; exact hend) ?_
  cases vals with
  | nil => simp at hv
  | cons x vals =>
    obtain ⟨v1, l1, c1⟩ := x
    simp only [List.map_cons, List.cons.injEq] at hv
    obtain ⟨rfl, hv⟩ := hv
    subst ho
    refine sim_mono (foldOps_sim sums vals v1 s1 ha1 hv) ?_
    rintro x _ s2 ⟨rfl, hs⟩
    exact ⟨rfl, hs.at ha1, by rw [hs.stream, hr1]⟩

end
end Over
