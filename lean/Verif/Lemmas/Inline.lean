import Verif.Lemmas.Like
import Verif.Lemmas.Globals
import Verif.Spec.Inline

/-! # Replacing names by their definitions -/

namespace Over

/-- What is defined or loaded in `st` still is in `st'`. -/
structure Later (st st' : ESt) : Prop where
  globals : ∀ x v, StrMap.get st.globals x = some v → StrMap.get st'.globals x = some v
  cache : ∀ x v, StrMap.get st.cache x = some v → StrMap.get st'.cache x = some v

theorem Later.refl (st : ESt) : Later st st := ⟨fun _ _ h => h, fun _ _ h => h⟩

theorem Later.trans {st st' st'' : ESt} (h : Later st st') (h' : Later st' st'') : Later st st'' :=
  ⟨fun x v e => h'.globals x v (h.globals x v e), fun x v e => h'.cache x v (h.cache x v e)⟩

theorem Later.rt {st st' : ESt} (h : Later st st') (r : Rt) : Later st { st' with rt := r } := ⟨h.globals, h.cache⟩

theorem Later.of_eq {st st' st'' : ESt} (h : Later st st') (h1 : st''.globals = st'.globals) (h2 : st''.cache = st'.cache) : Later st st'' :=
  ⟨fun x v e => by rw [h1]; exact h.globals x v e, fun x v e => by rw [h2]; exact h.cache x v e⟩

section
variable {S : IncKind → Nat} {α α' β β' : Type} {file : Option Str}

/-- The nesting is too deep, in a file in `D`. -/
def TooDeep {α : Type} (D : Option Str → Prop) (x : Except SemErr (α × ESt)) : Prop := ∃ f, D f ∧ x = .error (.sem f .maxDepth)

/-! ## Evaluating again -/

/-- If `m` succeeds, `m'` gives the same later on and changes nothing (or the nesting is too deep). -/
def Again (file : Option Str) (S : IncKind → Nat) (Q : α → β → Prop) (m : EM α) (m' : EM β) : Prop :=
  ∀ st a st1, Warm S st.rt → m st = .ok (a, st1) → Warm S st1.rt ∧ Later st st1 ∧ st1.globals = st.globals ∧
    ∀ st2, Warm S st2.rt → Later st1 st2 →
    TooDeep (· = file) (m' st2) ∨ ∃ a' st3, m' st2 = .ok (a', st3) ∧ Q a a' ∧ Warm S st3.rt ∧ st3.globals = st2.globals ∧ st3.cache = st2.cache

theorem Again.bind {Q : α → α' → Prop} {R : β → β' → Prop} {m : EM α} {m' : EM α'} {k : α → EM β} {k' : α' → EM β'}
    (h : Again file S Q m m') (hk : ∀ a a', Q a a' → Again file S R (k a) (k' a')) (hl : ∀ a, ∃ a', Q a a') : Again file S R (m >>= k) (m' >>= k') := by
  intro st b st1 w e
  have e' : EM.bind m k st = .ok (b, st1) := e
  unfold EM.bind at e'
  cases em : m st with
  | error _ => rw [em] at e'; cases e'
  | ok x =>
    obtain ⟨a, stm⟩ := x
    rw [em] at e'
    obtain ⟨w1, x1, g1, h1⟩ := h st a stm w em
    obtain ⟨a0, q0⟩ := hl a
    obtain ⟨w2, x2, g2, -⟩ := hk a a0 q0 stm b st1 w1 e'
    refine ⟨w2, x1.trans x2, g2.trans g1, fun st2 w3 x3 => ?_⟩
    show TooDeep (· = file) (EM.bind m' k' st2) ∨ ∃ a' st3, EM.bind m' k' st2 = _ ∧ _
    unfold EM.bind
    rcases h1 st2 w3 (x2.trans x3) with ⟨f, hf, h2⟩ | ⟨a', st3, h2, q, w4, g4, c4⟩
    · rw [h2]; exact .inl ⟨f, hf, rfl⟩
    · rw [h2]
      obtain ⟨-, -, -, h3⟩ := hk a a' q stm b st1 w1 e'
      rcases h3 st3 w4 (x3.of_eq g4 c4) with h4 | ⟨b', st4, h4, q', w5, g5, c5⟩
      · exact .inl h4
      · exact .inr ⟨b', st4, h4, q', w5, g5.trans g4, c5.trans c4⟩

theorem Again.of_local {Q : α → β → Prop} {m : EM α} {m' : EM β} (h : Local S Q m m') : Again file S Q m m' := by
  intro st a st1 w e
  have hself := h st st w w
  rcases hself with ⟨_, h1, -⟩ | ⟨a1, -, r, -, h1, -, -, w1, -⟩
  · rw [h1] at e; cases e
  · rw [h1] at e
    cases e
    refine ⟨w1, (Later.refl st).rt r, rfl, fun st2 w2 x2 => .inr ?_⟩
    rcases h st st2 w w2 with ⟨_, h2, -⟩ | ⟨b, b', r2, r2', h2, h3, q, w3, w4⟩
    · rw [h1] at h2; cases h2
    · rw [h1] at h2
      cases h2
      exact ⟨b', _, h3, q, w4, rfl, rfl⟩

theorem Again.fail {Q : α → β → Prop} {m' : EM β} (f : Option Str) (k : SemKind) : Again file S Q (EM.fail f k) m' := by
  intro st a st1 _ e; cases e

theorem Again.ite {Q : α → β → Prop} {c c' : Prop} [Decidable c] [Decidable c'] {a b : EM α} {a' b' : EM β} (hc : c ↔ c')
    (h1 : c → Again file S Q a a') (h2 : ¬ c → Again file S Q b b') : Again file S Q (if c then a else b) (if c' then a' else b') := by
  by_cases h : c
  · rw [if_pos h, if_pos (hc.1 h)]; exact h1 h
  · rw [if_neg h, if_neg (fun x => h (hc.2 x))]; exact h2 h

theorem Again.depthCheck (d d' : Nat) :
    Again file S (fun _ _ => True) (depthCheck file d) (depthCheck file d') := by
  intro st a st1 w e
  unfold Over.depthCheck at *
  split at e
  · cases e
  · cases e
    refine ⟨w, Later.refl st, rfl, fun st2 w2 _ => ?_⟩
    split
    · exact .inl ⟨file, rfl, rfl⟩
    · exact .inr ⟨(), st2, rfl, trivial, w2, rfl, rfl⟩

/-! ## Scopes -/

/-- Every field of the scope `ps` is also one of `ps'`, with the same value. -/
def ScopeLe (S : IncKind → Nat) (ps ps' : List Pair) : Prop :=
  ∀ x p, ps.find? (fun p => p.field == x) = some p → ∃ p', ps'.find? (fun p => p.field == x) = some p' ∧ Like S p.value p'.value

theorem LikeP.scope {ps ps' : List Pair} (h : LikeP S ps ps') : ScopeLe S ps ps' := by
  intro x p e
  rcases h.find x with ⟨h1, -⟩ | ⟨q, q', h1, h2, h3⟩
  · rw [h1] at e; cases e
  · rw [h1] at e; cases e; exact ⟨q', h2, h3⟩

theorem ScopeLe.refl (ps : List Pair) : ScopeLe S ps ps := (LikeP.refl ps).scope

theorem ScopeLe.trans {a b c : List Pair} (h : ScopeLe S a b) (h' : ScopeLe S b c) : ScopeLe S a c := by
  intro x p e
  obtain ⟨q, h1, h2⟩ := h x p e
  obtain ⟨r, h3, h4⟩ := h' x q h1
  exact ⟨r, h3, h2.trans h4⟩

theorem ScopeLe.append (a b : List Pair) : ScopeLe S a (a ++ b) := by
  intro x p e
  exact ⟨p, by rw [List.find?_append, e]; rfl, Like.refl _⟩

theorem evalName_at {y : Str} {ps : List Pair} (h1 : y.head? = some '@') (h2 : y ≠ c!"@") : evalName file ps y = evalGlobal file y := by
  have ne : ∀ {y w : Str}, y.head? = some '@' → w.head? ≠ some '@' → y ≠ w := by rintro y w h1 h2 rfl; exact h2 h1
  simp only [evalName, ne h1 (w := c!"null") (by decide), ne h1 (w := c!"true") (by decide),
    ne h1 (w := c!"false") (by decide), ne h1 (w := c!"Obj") (by decide), ne h1 (w := c!"Str") (by decide),
    ne h1 (w := c!"Arr") (by decide), ne h1 (w := c!"Tup") (by decide), h1, h2, if_true, if_false]

theorem evalName_again {ps ps' : List Pair} {x : Str} (h : ScopeLe S ps ps' ∨ noField x = true) :
    Again file S (Like S) (evalName file ps x) (evalName file ps' x) := by
  by_cases hx : x.head? = some '@'
  · by_cases ha : x = c!"@"
    · subst ha; exact .fail _ _
    rw [evalName_at hx ha, evalName_at hx ha]
    intro st a st1 w e
    unfold evalGlobal at *
    split at e
    · next v hv =>
      cases e
      refine ⟨w, Later.refl _, rfl, fun st2 w2 x2 => .inr ⟨a, st2, ?_, rfl, w2, rfl, rfl⟩⟩
      rw [x2.globals _ _ hv]
    · cases e
  · unfold evalName
    refine .ite Iff.rfl (fun _ => .of_local (.pure rfl)) fun n1 => .ite Iff.rfl (fun _ => .of_local (.pure rfl)) fun n2 =>
      .ite Iff.rfl (fun _ => .of_local (.pure rfl)) fun n3 => .ite Iff.rfl (fun _ => .of_local (keyword_local _)) fun n4 =>
      .ite Iff.rfl (fun _ => .of_local (keyword_local _)) fun n5 => .ite Iff.rfl (fun _ => .of_local (keyword_local _)) fun n6 =>
      .ite Iff.rfl (fun _ => .of_local (keyword_local _)) fun n7 => .ite Iff.rfl (fun _ => .fail _ _) fun n8 => ?_
    rw [if_neg hx, if_neg hx]
    rcases h with h | h
    · intro st a st1 w e
      cases hf : ps.find? (fun p => p.field == x) with
      | none => rw [hf] at e; cases e
      | some p =>
        rw [hf] at e
        cases e
        obtain ⟨p', h1, h2⟩ := h x p hf
        refine ⟨w, Later.refl _, rfl, fun st2 w2 x2 => .inr ⟨p'.value, st2, ?_, h2, w2, rfl, rfl⟩⟩
        rw [h1]; rfl
    · exfalso
      simp only [noField, reservedWords, Bool.or_eq_true, beq_iff_eq, List.contains_eq_mem, List.mem_cons, List.not_mem_nil, or_false,
        decide_eq_true_eq] at h
      tauto

/-- Reading files keeps what is defined and loaded. -/
def LoadLater (S : IncKind → Nat) (load : Loader) : Prop :=
  ∀ stack kind path st v st1, Warm S st.rt → load stack kind path st = .ok (v, st1) →
    Warm S st1.rt ∧ Later st st1 ∧ st1.globals = st.globals

theorem evalInclude_again {fs : FS} {stack : List Str} {load : Loader} (hl : LoadLater S load) (kind : IncKind) (p : Str) :
    Again file S (Like S) (evalInclude fs file stack load kind p) (evalInclude fs file stack load kind p) := by
  unfold evalInclude
  extract_lets path
  clear_value path
  cases fs.resolve path with
  | none => exact .fail _ _
  | some full =>
    dsimp only
    refine .ite Iff.rfl (fun _ => .fail _ _) fun _ => .ite Iff.rfl (fun _ => .fail _ _) fun _ => ?_
    intro st v st1 w e
    beta_reduce at *
    have now : Warm S st1.rt ∧ Later st st1 ∧ st1.globals = st.globals ∧ StrMap.get st1.cache full = some v := by
      cases hc : StrMap.get st.cache full with
      | some u => rw [hc] at e; cases e; exact ⟨w, Later.refl _, rfl, hc⟩
      | none =>
        rw [hc] at e
        cases hr : load (full :: stack) kind path st with
        | error x => simp only [hr] at e; cases e
        | ok x =>
          obtain ⟨u, stm⟩ := x
          simp only [hr] at e
          obtain ⟨w1, x1, g1⟩ := hl _ _ _ _ _ _ w hr
          cases e
          refine ⟨w1, ⟨x1.globals, fun y u hy => ?_⟩, g1, StrMap.get_insert_self _ _ _⟩
          have hne : y ≠ full := by rintro rfl; rw [hc] at hy; cases hy
          exact (StrMap.get_insert_ne _ _ hne).trans (x1.cache y u hy)
    refine ⟨now.1, now.2.1, now.2.2.1, fun st2 w2 x2 => .inr ⟨v, st2, ?_, rfl, w2, rfl, rfl⟩⟩
    rw [x2.cache _ _ now.2.2.2]

end

section
variable {S : IncKind → Nat} {fs : FS} {file : Option Str} {stack : List Str} {load : Loader}

/-- Relation of the results of a chain. -/
def LikeChain (S : IncKind → Nat) (x y : Value × List (BinOp × Value)) : Prop := Like S x.1 y.1 ∧ LikeOps S x.2 y.2

theorem LikeOps.refl : ∀ l : List (BinOp × Value), LikeOps S l l
  | [] => .nil
  | (_, _) :: l => .cons rfl (LikeOps.refl l)

theorem Like.any (v : Value) : ∃ v', Like S v v' := ⟨v, rfl⟩

mutual
theorem evalTerm_again (hl : LoadLater S load) : ∀ (t : Term), t.definesNoGlobal = true → ∀ {ps ps' : List Pair} {d d' : Nat},
    (ScopeLe S ps ps' ∨ t.usesNoField = true) →
    Again file S (Like S) (evalTerm fs file stack load t ps d) (evalTerm fs file stack load t ps' d')
  | .str s, _, _, _, _, _, _ => .of_local (.pure rfl)
  | .int n, _, _, _, _, _, _ => .of_local (.pure rfl)
  | .frac q, _, _, _, _, _, _ => .of_local (.pure rfl)
  | .name x, _, ps, ps', _, _, h => evalName_again h
  | .dot x t, hg, ps, ps', d, d', h => by
    simp only [Term.definesNoGlobal] at hg
    simp only [Term.usesNoField, Bool.and_eq_true] at h
    simp only [evalTerm]
    refine .bind (evalName_again (h.imp_right And.left)) (fun v v' hv => ?_) Like.any
    cases hv.form with
    | arr i i' ty vs vs' hvs _ => exact .bind (evalTerm_again hl t hg (h.imp_right And.right)) (fun i i' hi => .of_local (evalIndex_local _ hvs hi)) Like.any
    | tup i i' ty vs vs' hvs _ => exact .bind (evalTerm_again hl t hg (h.imp_right And.right)) (fun i i' hi => .of_local (evalIndex_local _ hvs hi)) Like.any
    | obj o o' ho =>
      refine .ite Iff.rfl (fun _ => .fail _ _) fun _ => .ite Iff.rfl (fun _ => .fail _ _) fun _ => ?_
      exact evalTerm_again hl t hg (.inl ho.pairs.scope)
    | _ => exact .fail _ _
  | .neg t, hg, ps, ps', d, d', h => by
    simp only [evalTerm]
    exact .bind (evalTerm_again hl t (by simpa only [Term.definesNoGlobal] using hg) (by simpa only [Term.usesNoField] using h))
      (fun v v' hv => .of_local (applyUn_local _ hv)) Like.any
  | .pos t, hg, ps, ps', d, d', h => by
    simp only [evalTerm]
    exact .bind (evalTerm_again hl t (by simpa only [Term.definesNoGlobal] using hg) (by simpa only [Term.usesNoField] using h))
      (fun v v' hv => .of_local (applyUn_local _ hv)) Like.any
  | .arr es, hg, ps, ps', d, d', h => by
    simp only [evalTerm]
    refine .bind (.depthCheck _ _) (fun _ _ _ => .bind (evalElems_again hl es (by simpa only [Term.definesNoGlobal] using hg)
      (by simpa only [Term.usesNoField] using h)) (fun x x' hx => ?_) (fun x => ⟨x, rfl, rfl⟩)) (fun _ => ⟨(), trivial⟩)
    obtain ⟨vs, t⟩ := x
    obtain ⟨vs', t'⟩ := x'
    obtain ⟨h1, rfl⟩ : LikeL S vs vs' ∧ t = t' := hx
    exact .of_local (.bind .fresh fun i j hij => .pure (by
      show Value.mapIds _ _ = Value.mapIds _ _
      simp only [Value.mapIds, hij.1, hij.2, show Value.mapIdsL _ vs = _ from h1]))
  | .tup es, hg, ps, ps', d, d', h => by
    simp only [evalTerm]
    refine .bind (.depthCheck _ _) (fun _ _ _ => .bind (evalItems_again hl es (by simpa only [Term.definesNoGlobal] using hg)
      (by simpa only [Term.usesNoField] using h)) (fun vs vs' hx => ?_) (fun x => ⟨x, rfl⟩)) (fun _ => ⟨(), trivial⟩)
    exact .of_local (.bind .fresh fun i j hij => .pure (by
      show Value.mapIds _ _ = Value.mapIds _ _
      simp only [Value.mapIds, hij.1, hij.2, show Value.mapIdsL _ vs = _ from hx, hx.getType]))
  | .obj fds, hg, ps, ps', d, d', _ => by
    simp only [evalTerm]
    refine .bind (.depthCheck _ _) (fun _ _ _ => .bind (evalFields_again hl fds (by simpa only [Term.definesNoGlobal] using hg)
      rfl rfl) (fun x x' hx => ?_) (fun x => ⟨x, rfl, rfl⟩)) (fun _ => ⟨(), trivial⟩)
    obtain ⟨q, r⟩ := x
    obtain ⟨q', r'⟩ := x'
    obtain ⟨h1, h2⟩ : LikeP S q q' ∧ LikeO S r r' := hx
    exact .of_local (.bind .fresh fun i j hij => .pure (by
      show Value.mapIds _ _ = Value.mapIds _ _
      simp only [Value.mapIds, Obj.mapIds, hij.1, hij.2, show Pair.mapIdsL _ q = _ from h1, show Obj.mapIdsP _ r = _ from h2]))
  | .incl e, hg, ps, ps', d, d', h => by
    simp only [evalTerm]
    refine .bind (.depthCheck _ _) (fun _ _ _ => .bind (evalExpr_again hl e (by simpa only [Term.definesNoGlobal] using hg)
      (by simpa only [Term.usesNoField] using h)) (fun v v' hv => .bind (.of_local (evalKeyword_local hv)) (fun k k' hk => ?_)
        (fun k => ⟨k, rfl⟩)) Like.any) (fun _ => ⟨(), trivial⟩)
    subst hk
    cases k with
    | some k => exact .fail _ _
    | none => cases hv.form <;> first | exact .fail _ _ | exact evalInclude_again hl _ _
  | .inclAs k e, hg, ps, ps', d, d', h => by
    simp only [Term.definesNoGlobal, Bool.and_eq_true] at hg
    simp only [Term.usesNoField, Bool.and_eq_true] at h
    simp only [evalTerm]
    refine .bind (.depthCheck _ _) (fun _ _ _ => .bind (evalExpr_again hl k hg.1 (h.imp_right And.left)) (fun v v' hv => .bind
      (.of_local (evalKeyword_local hv)) (fun k k' hk => ?_) (fun k => ⟨k, rfl⟩)) Like.any) (fun _ => ⟨(), trivial⟩)
    subst hk
    cases k with
    | none => exact .fail _ _
    | some k =>
      refine .bind (evalExpr_again hl e hg.2 (h.imp_right And.right)) (fun w w' hw => ?_) Like.any
      cases hw.form <;> first | exact .fail _ _ | exact evalInclude_again hl _ _
termination_by structural t => t
theorem evalExpr_again (hl : LoadLater S load) : ∀ (e : Expr), e.definesNoGlobal = true → ∀ {ps ps' : List Pair} {d d' : Nat},
    (ScopeLe S ps ps' ∨ e.usesNoField = true) →
    Again file S (Like S) (evalExpr fs file stack load e ps d) (evalExpr fs file stack load e ps' d')
  | .mk t r, hg, ps, ps', d, d', h => by
    simp only [Expr.definesNoGlobal, Bool.and_eq_true] at hg
    simp only [Expr.usesNoField, Bool.and_eq_true] at h
    simp only [evalExpr]
    refine .bind (evalTerm_again hl t hg.1 (h.imp_right And.left)) (fun v v' hv => .bind (evalChain_again hl r hg.2 hv (h.imp_right And.right))
      (fun x x' hx => .of_local (sumLeft_local hx.2 hx.1)) (fun x => ⟨x, rfl, LikeOps.refl _⟩)) Like.any
termination_by structural t => t
theorem evalChain_again (hl : LoadLater S load) : ∀ (r : List OpTerm), OpTerm.definesNoGlobalL r = true → ∀ {v v' : Value} {ps ps' : List Pair}
    {d d' : Nat}, Like S v v' → (ScopeLe S ps ps' ∨ OpTerm.usesNoFieldL r = true) →
    Again file S (LikeChain S) (evalChain fs file stack load r v ps d) (evalChain fs file stack load r v' ps' d')
  | [], _, _, _, _, _, _, _, hv, _ => .of_local (.pure ⟨hv, .nil⟩)
  | .mk op t :: r, hg, v, v', ps, ps', d, d', hv, h => by
    simp only [OpTerm.definesNoGlobalL, Bool.and_eq_true] at hg
    simp only [OpTerm.usesNoFieldL, Bool.and_eq_true] at h
    simp only [evalChain]
    refine .bind (evalTerm_again hl t hg.1 (h.imp_right And.left)) (fun w w' hw => .ite Iff.rfl (fun _ => ?_) fun _ => ?_) Like.any
    · exact .bind (.of_local (applyBin_local _ hv hw)) (fun u u' hu => evalChain_again hl r hg.2 hu (h.imp_right And.right)) Like.any
    · exact .bind (evalChain_again hl r hg.2 hw (h.imp_right And.right)) (fun x x' hx => .of_local (.pure ⟨hv, .cons hx.1 hx.2⟩))
        (fun x => ⟨x, rfl, LikeOps.refl _⟩)
termination_by structural t => t
theorem evalElems_again (hl : LoadLater S load) : ∀ (es : List Expr), Expr.definesNoGlobalL es = true → ∀ {ps ps' : List Pair} {d d' : Nat}
    {t : Ty}, (ScopeLe S ps ps' ∨ Expr.usesNoFieldL es = true) →
    Again file S (fun x y => LikeL S x.1 y.1 ∧ x.2 = y.2) (evalElems fs file stack load es ps d t) (evalElems fs file stack load es ps' d' t)
  | [], _, _, _, _, _, _, _ => .of_local (.pure ⟨rfl, rfl⟩)
  | e :: es, hg, ps, ps', d, d', t, h => by
    simp only [Expr.definesNoGlobalL, Bool.and_eq_true] at hg
    simp only [Expr.usesNoFieldL, Bool.and_eq_true] at h
    simp only [evalElems]
    refine .bind (evalExpr_again hl e hg.1 (h.imp_right And.left)) (fun v v' hv => ?_) Like.any
    rw [← hv.getType]
    cases Ty.mostSpecific t v.getType with
    | none => exact .fail _ _
    | some u =>
      exact .bind (evalElems_again hl es hg.2 (h.imp_right And.right)) (fun x x' hx => .of_local (.pure ⟨.cons hv hx.1, hx.2⟩))
        (fun x => ⟨x, rfl, rfl⟩)
termination_by structural t => t
theorem evalItems_again (hl : LoadLater S load) : ∀ (es : List Expr), Expr.definesNoGlobalL es = true → ∀ {ps ps' : List Pair} {d d' : Nat},
    (ScopeLe S ps ps' ∨ Expr.usesNoFieldL es = true) →
    Again file S (LikeL S) (evalItems fs file stack load es ps d) (evalItems fs file stack load es ps' d')
  | [], _, _, _, _, _, _ => .of_local (.pure rfl)
  | e :: es, hg, ps, ps', d, d', h => by
    simp only [Expr.definesNoGlobalL, Bool.and_eq_true] at hg
    simp only [Expr.usesNoFieldL, Bool.and_eq_true] at h
    simp only [evalItems]
    exact .bind (evalExpr_again hl e hg.1 (h.imp_right And.left)) (fun v v' hv => .bind (evalItems_again hl es hg.2 (h.imp_right And.right))
      (fun x x' hx => .of_local (.pure (.cons hv hx))) (fun x => ⟨x, rfl⟩)) Like.any
termination_by structural t => t
theorem evalFields_again (hl : LoadLater S load) : ∀ (fds : List Field), Field.definesNoGlobalL fds = true → ∀ {ps ps' : List Pair}
    {par par' : Option Obj} {d d' : Nat}, LikeP S ps ps' → LikeO S par par' →
    Again file S (fun x y => LikeP S x.1 y.1 ∧ LikeO S x.2 y.2) (evalFields fs file stack load fds d ps par)
      (evalFields fs file stack load fds d' ps' par')
  | [], _, _, _, _, _, _, _, hp, hr => .of_local (.pure ⟨hp, hr⟩)
  | .mk tg e :: fds, hg, ps, ps', par, par', d, d', hp, hr => by
    cases tg with
    | global g => simp [Field.definesNoGlobalL] at hg
    | field f =>
      simp only [Field.definesNoGlobalL, Bool.and_eq_true] at hg
      simp only [evalFields, checkNew]
      refine .bind (.ite (by rw [hp.names]) (fun _ => .fail _ _) (fun _ => .of_local (.pure (Q := fun _ _ => True) trivial)))
        (fun _ _ _ => .bind (evalExpr_again hl e hg.1 (.inl hp.scope)) (fun v v' hv => ?_) Like.any) (fun _ => ⟨(), trivial⟩)
      exact evalFields_again hl fds hg.2 (hp.snoc hv f) hr
    | parent =>
      simp only [Field.definesNoGlobalL, Bool.and_eq_true] at hg
      simp only [evalFields, checkNew]
      refine .bind (.ite (by rw [hr.isSome]) (fun _ => .fail _ _) (fun _ => .of_local (.pure (Q := fun _ _ => True) trivial)))
        (fun _ _ _ => .bind (evalExpr_again hl e hg.1 (.inl hp.scope)) (fun v v' hv => ?_) Like.any) (fun _ => ⟨(), trivial⟩)
      cases hv.form <;> try exact .fail _ _
      rename_i o o' ho
      exact evalFields_again hl fds hg.2 hp (show Obj.mapIdsP _ _ = Obj.mapIdsP _ _ by simp only [Obj.mapIdsP, show o.mapIds _ = _ from ho])
termination_by structural t => t
end

end

end Over
