import Verif.Lemmas.Fold
import Verif.Lemmas.Project
import Verif.Lemmas.Edited
import Verif.Spec.FoldFiles

/-! # Replacing closed parts by others of the same value in the files of a project -/

set_option linter.unusedSectionVars false

namespace Over
namespace FF

section
variable {S : IncKind → Nat} {α α' β β' : Type}

/-- The states of both runs: the same globals and files, up to ids. -/
abbrev Rel (S : IncKind → Nat) (st st' : ESt) : Prop := RelSt S (fun _ => False) st st'

/-- Both runs fail alike, or both end with related results. -/
def Both (S : IncKind → Nat) (Q : α → β → Prop) (x : Except SemErr (α × ESt)) (y : Except SemErr (β × ESt)) : Prop :=
  (∃ e, x = .error e ∧ y = .error e) ∨ ∃ a a' s s', x = .ok (a, s) ∧ y = .ok (a', s') ∧ Q a a' ∧ Rel S s s'

/-- The runs correspond. -/
def Sim (S : IncKind → Nat) (Q : α → β → Prop) (m : EM α) (m' : EM β) : Prop := ∀ st st', Rel S st st' → Both S Q (m st) (m' st')

theorem Sim.bind {Q : α → α' → Prop} {R : β → β' → Prop} {m : EM α} {m' : EM α'} {k : α → EM β} {k' : α' → EM β'} (h : Sim S Q m m')
    (hk : ∀ a a', Q a a' → Sim S R (k a) (k' a')) : Sim S R (m >>= k) (m' >>= k') := by
  intro st st' hr
  show Both S R (EM.bind m k st) (EM.bind m' k' st')
  unfold EM.bind
  rcases h st st' hr with ⟨e, h1, h2⟩ | ⟨a, a', s, s', h1, h2, q, h3⟩
  · rw [h1, h2]; exact .inl ⟨e, rfl, rfl⟩
  · rw [h1, h2]; exact hk a a' q s s' h3

theorem Sim.of_local {Q : α → β → Prop} {m : EM α} {m' : EM β} (h : Local S Q m m') : Sim S Q m m' := by
  intro st st' hr
  rcases h st st' hr.warm hr.warm' with ⟨e, h1, h2⟩ | ⟨a, a', r, r', h1, h2, q, w, w'⟩
  · exact .inl ⟨e, h1, h2⟩
  · exact .inr ⟨a, a', _, _, h1, h2, q, hr.rt w w'⟩

theorem Sim.pure {Q : α → β → Prop} {a : α} {b : β} (h : Q a b) : Sim S Q (pure a) (pure b) := .of_local (.pure h)

theorem Sim.fail {Q : α → β → Prop} (file : Option Str) (k : SemKind) : Sim S Q (EM.fail file k) (EM.fail file k) := .of_local (.fail _ _)

theorem Sim.error {Q : α → β → Prop} (e : SemErr) : Sim S Q (fun _ => .error e) (fun _ => .error e) := fun _ _ _ => .inl ⟨e, rfl, rfl⟩

theorem Sim.ite {Q : α → β → Prop} {c c' : Prop} [Decidable c] [Decidable c'] {a b : EM α} {a' b' : EM β} (hc : c ↔ c')
    (h1 : Sim S Q a a') (h2 : Sim S Q b b') : Sim S Q (if c then a else b) (if c' then a' else b') := by
  by_cases h : c
  · rw [if_pos h, if_pos (hc.1 h)]; exact h1
  · rw [if_neg h, if_neg (fun x => h (hc.2 x))]; exact h2

theorem Sim.dite {Q : α → β → Prop} {c c' : Prop} {_ : Decidable c} {_ : Decidable c'} {a : c → EM α} {b : ¬ c → EM α}
    {a' : c' → EM β} {b' : ¬ c' → EM β} (hc : c ↔ c') (h1 : ∀ h h', Sim S Q (a h) (a' h'))
    (h2 : ∀ h h', Sim S Q (b h) (b' h')) : Sim S Q (dite c a b) (dite c' a' b') := by
  by_cases h : c
  · rw [dif_pos h, dif_pos (hc.1 h)]; exact h1 _ _
  · rw [dif_neg h, dif_neg (fun h' => h (hc.2 h'))]; exact h2 _ _

theorem Sim.depthCheck {file : Option Str} {d : Nat} : Sim S (fun _ _ => True) (depthCheck file d) (depthCheck file d) := by
  unfold Over.depthCheck
  exact .ite Iff.rfl (.fail _ _) (.pure trivial)

theorem Sim.fresh : Sim S (fun i j => mask S i = 0 ∧ mask S j = 0) EM.fresh EM.fresh := .of_local .fresh

theorem Sim.name {file : Option Str} {ps ps' : List Pair} (hp : LikeP S ps ps') (x : Str) :
    Sim S (Like S) (evalName file ps x) (evalName file ps' x) := by
  by_cases h : x.head? = some '@'
  · by_cases ha : x = c!"@"
    · subst ha; exact .fail _ _
    rw [evalName_at h ha, evalName_at h ha]
    intro st st' hr
    unfold evalGlobal
    rcases hr.globals x id with ⟨h1, h2⟩ | ⟨v, v', h1, h2, h3⟩
    · rw [h1, h2]; exact .inl ⟨_, rfl, rfl⟩
    · rw [h1, h2]; exact .inr ⟨v, v', st, st', rfl, rfl, h3, hr⟩
  · exact .of_local (evalName_local h hp)

theorem Sim.checkNew {file : Option Str} {ps ps' : List Pair} {par par' : Option Obj} (hp : LikeP S ps ps') (hr : LikeO S par par') (tg : Target) :
    Sim S (fun _ _ => True) (checkNew file ps par tg) (checkNew file ps' par' tg) := by
  cases tg with
  | field f =>
    simp only [Over.checkNew, hp.names]
    exact .ite Iff.rfl (.fail _ _) (.pure trivial)
  | parent =>
    simp only [Over.checkNew, hr.isSome]
    exact .ite Iff.rfl (.fail _ _) (.pure trivial)
  | global g =>
    intro st st' h
    simp only [Over.checkNew]
    rcases h.globals g id with ⟨h1, h2⟩ | ⟨v, v', h1, h2, h3⟩
    · rw [h1, h2]; exact .inr ⟨_, _, _, _, rfl, rfl, trivial, h⟩
    · rw [h1, h2]; exact .inl ⟨_, rfl, rfl⟩

theorem Sim.setGlobal {g : Str} {v v' : Value} (hv : Like S v v') : Sim S (fun _ _ => True) (setGlobal g v) (setGlobal g v') := by
  intro st st' h
  exact .inr ⟨_, _, _, _, rfl, rfl, trivial, fun x hx => LikeGet.insert hv _ _ fun _ => h.globals x hx, h.cache, h.warm, h.warm'⟩

theorem Sim.ownGlobals {Q : α → β → Prop} {m : EM α} {m' : EM β} (h : Sim S Q m m') : Sim S Q m.ownGlobals m'.ownGlobals := by
  intro st st' hr
  unfold EM.ownGlobals
  have hr' : Rel S { st with globals := [] } { st' with globals := [] } := ⟨fun _ _ => LikeGet.refl _, hr.cache, hr.warm, hr.warm'⟩
  rcases h _ _ hr' with ⟨e, h1, h2⟩ | ⟨a, a', s, s', h1, h2, q, h3⟩
  · rw [h1, h2]; exact .inl ⟨e, rfl, rfl⟩
  · rw [h1, h2]; exact .inr ⟨a, a', _, _, rfl, rfl, q, hr.globals, h3.cache, h3.warm, h3.warm'⟩

theorem arr_new {vs vs' : List Value} (t : Ty) (h : LikeL S vs vs') :
    Sim S (Like S) (do let i ← EM.fresh; pure (.arr i t vs) : EM Value) (do let i ← EM.fresh; pure (.arr i t vs') : EM Value) :=
  .bind .fresh fun i j hij => .pure (by
    show Value.mapIds _ _ = Value.mapIds _ _
    simp only [Value.mapIds, hij.1, hij.2, show Value.mapIdsL _ vs = _ from h])

theorem tup_new {vs vs' : List Value} (h : LikeL S vs vs') :
    Sim S (Like S) (do let i ← EM.fresh; pure (.tup i (vs.map Value.getType) vs) : EM Value)
      (do let i ← EM.fresh; pure (.tup i (vs'.map Value.getType) vs') : EM Value) :=
  .bind .fresh fun i j hij => .pure (by
    show Value.mapIds _ _ = Value.mapIds _ _
    simp only [Value.mapIds, hij.1, hij.2, show Value.mapIdsL _ vs = _ from h, h.getType])

theorem obj_new {x x' : List Pair × Option Obj} (h : LikeFields S x x') :
    Sim S (LikeObj S) (do let i ← EM.fresh; pure (.mk i x.1 x.2) : EM Obj) (do let i ← EM.fresh; pure (.mk i x'.1 x'.2) : EM Obj) :=
  .bind .fresh fun i j hij => .pure (by
    show Obj.mapIds _ _ = Obj.mapIds _ _
    simp only [Obj.mapIds, hij.1, hij.2, show Pair.mapIdsL _ x.1 = _ from h.1, show Obj.mapIdsP _ x.2 = _ from h.2])

end

/-- The depth fits, if it matters. -/
def FitsN (N : Prop) (d L : Nat) : Prop := N ∨ Fits d L

theorem fitsN_max {N : Prop} {d a b : Nat} : FitsN N d (max a b) ↔ FitsN N d a ∧ FitsN N d b := by
  unfold FitsN; rw [fits_max]; tauto

theorem fitsN_bracket {N : Prop} {d L : Nat} : FitsN N d (1 + L) ↔ (N ∨ d + 1 ≤ 64) ∧ FitsN N (d + 1) L := by
  unfold FitsN; rw [fits_bracket]; tauto

theorem fitsN_sign {N : Prop} {d L : Nat} : FitsN N d (signLevels L) ↔ FitsN N (d + 1) L := by
  unfold FitsN; rw [fits_sign]

/-! ## What the parts of a folded operand are -/

section
variable {P : Expr → Expr → Prop}

theorem ops_refl : ∀ r : List OpTerm, FoldOps P r r
  | [] => .nil
  | .mk _ _ :: r => .cons (.same _) (ops_refl r)
theorem expr_refl : ∀ e : Expr, FoldExpr P e e
  | .mk _ r => .mk (.same _) (ops_refl r)
theorem items_refl : ∀ es : List Expr, FoldItems P es es
  | [] => .nil
  | e :: es => .cons (expr_refl e) (items_refl es)

/-- The operand is replaced as a whole. -/
abbrev Swap (P : Expr → Expr → Prop) (t t' : Term) : Prop := P (.mk t []) (.mk t' [])

theorem inv_neg {t t' : Term} (h : FoldTerm P (.neg t) t') : Swap P (.neg t) t' ∨ ∃ u, t' = .neg u ∧ FoldTerm P t u := by
  cases h with
  | same => exact .inr ⟨_, rfl, .same _⟩
  | swap h => exact .inl h
  | neg h => exact .inr ⟨_, rfl, h⟩
theorem inv_pos {t t' : Term} (h : FoldTerm P (.pos t) t') : Swap P (.pos t) t' ∨ ∃ u, t' = .pos u ∧ FoldTerm P t u := by
  cases h with
  | same => exact .inr ⟨_, rfl, .same _⟩
  | swap h => exact .inl h
  | pos h => exact .inr ⟨_, rfl, h⟩
theorem inv_dot {x : Str} {t t' : Term} (h : FoldTerm P (.dot x t) t') : Swap P (.dot x t) t' ∨ t' = .dot x t := by
  cases h with
  | same => exact .inr rfl
  | swap h => exact .inl h
theorem inv_arr {es : List Expr} {t' : Term} (h : FoldTerm P (.arr es) t') : Swap P (.arr es) t' ∨ ∃ u, t' = .arr u ∧ FoldItems P es u := by
  cases h with
  | same => exact .inr ⟨_, rfl, items_refl _⟩
  | swap h => exact .inl h
  | arr h => exact .inr ⟨_, rfl, h⟩
theorem inv_tup {es : List Expr} {t' : Term} (h : FoldTerm P (.tup es) t') : Swap P (.tup es) t' ∨ ∃ u, t' = .tup u ∧ FoldItems P es u := by
  cases h with
  | same => exact .inr ⟨_, rfl, items_refl _⟩
  | swap h => exact .inl h
  | tup h => exact .inr ⟨_, rfl, h⟩
theorem fields_refl : ∀ fds : List Field, FoldFields P fds fds
  | [] => .nil
  | .mk _ e :: fds => .cons (expr_refl e) (fields_refl fds)
theorem inv_obj {fds : List Field} {t' : Term} (h : FoldTerm P (.obj fds) t') : Swap P (.obj fds) t' ∨ ∃ u, t' = .obj u ∧ FoldFields P fds u := by
  cases h with
  | same => exact .inr ⟨_, rfl, fields_refl _⟩
  | swap h => exact .inl h
  | obj h => exact .inr ⟨_, rfl, h⟩
theorem inv_incl {e : Expr} {t' : Term} (h : FoldTerm P (.incl e) t') : Swap P (.incl e) t' ∨ ∃ u, t' = .incl u ∧ FoldExpr P e u := by
  cases h with
  | same => exact .inr ⟨_, rfl, expr_refl _⟩
  | swap h => exact .inl h
  | incl h => exact .inr ⟨_, rfl, h⟩
theorem inv_inclAs {k e : Expr} {t' : Term} (h : FoldTerm P (.inclAs k e) t') : Swap P (.inclAs k e) t' ∨
    ∃ j u, t' = .inclAs j u ∧ FoldExpr P k j ∧ FoldExpr P e u := by
  cases h with
  | same => exact .inr ⟨_, _, rfl, expr_refl _, expr_refl _⟩
  | swap h => exact .inl h
  | inclAs h h' => exact .inr ⟨_, _, rfl, h, h'⟩

end

section
variable [Unicode] {S : IncKind → Nat} {fs fs' : FS} {file : Option Str} {stack : List Str} {load load' : Loader}

theorem swap_sim {e e' : Expr} (h : Swappable e e') {ps ps' : List Pair} {d : Nat} (hf : Fits d e.levels) (hf' : Fits d e'.levels) :
    Sim S (Like S) (evalExpr fs file stack load e ps d) (evalExpr fs' file stack load' e' ps' d) := by
  obtain ⟨c, c', k, k', v, v', st0, s, st0', s', h0, h0', hd⟩ := h
  refine .of_local ?_
  intro st st' w w'
  obtain ⟨a, r, h1, h2, h3, h4⟩ := eval_of_alone (fs := fs) (file := file) (stack := stack) (load := load) c k h0 (ps := ps) hf w
  obtain ⟨a', r', h1', h2', h3', h4'⟩ := eval_of_alone (fs := fs') (file := file) (stack := stack) (load := load') c' k' h0' (ps := ps') hf' w'
  exact .inr ⟨a, a', r, r', h1, h1', h3.like h3' (h2.trans (hd.trans h2'.symm)), h4, h4'⟩

theorem swap_term {t t' : Term} (h : Swappable (.mk t []) (.mk t' [])) {ps ps' : List Pair} {d : Nat} (hf : Fits d t.levels) (hf' : Fits d t'.levels) :
    Sim S (Like S) (evalTerm fs file stack load t ps d) (evalTerm fs' file stack load' t' ps' d) := by
  have := swap_sim (S := S) (fs := fs) (fs' := fs') (file := file) (stack := stack) (load := load) (load' := load') h (ps := ps) (ps' := ps')
    (d := d) (by simpa [Expr.levels, OpTerm.levelsL] using hf) (by simpa [Expr.levels, OpTerm.levelsL] using hf')
  rwa [evalExpr_single, evalExpr_single] at this

variable {P : Expr → Expr → Prop} {B : Str → Prop} {N : Prop} (hP : ∀ e e', P e e' → ¬ N ∧ Swappable e e')
  (hI : ∀ kind p, (kind = .str → B p) → Sim S (Like S) (evalInclude fs file stack load kind p) (evalInclude fs' file stack load' kind p))
include hP

omit hI in
/-- A string literal. -/
theorem evalStr_fold {s : Str} {e' : Expr} (h : FoldExpr P (.mk (.str s) []) e') {ps ps' : List Pair} {d : Nat}
    (hf : FitsN N d (Expr.mk (.str s) []).levels) (hf' : FitsN N d e'.levels) :
    Sim S (Like S) (evalExpr fs file stack load (.mk (.str s) []) ps d) (evalExpr fs' file stack load' e' ps' d) := by
  cases h with
  | swap h => exact swap_sim (hP _ _ h).2 (hf.resolve_left (hP _ _ h).1) (hf'.resolve_left (hP _ _ h).1)
  | mk h1 h2 =>
    cases h2
    simp only [Expr.levels, fitsN_max] at hf hf'
    rw [evalExpr_single, evalExpr_single]
    cases h1 with
    | same => simp only [evalTerm]; exact .pure rfl
    | swap h => exact swap_term (hP _ _ h).2 (hf.1.resolve_left (hP _ _ h).1) (hf'.1.resolve_left (hP _ _ h).1)

include hI

mutual
theorem evalTerm_fold : ∀ (t : Term) {t' : Term}, FoldTerm P t t' → t.barely B → ∀ {ps ps' : List Pair} {d : Nat}, LikeP S ps ps' →
    FitsN N d t.levels → FitsN N d t'.levels → Sim S (Like S) (evalTerm fs file stack load t ps d) (evalTerm fs' file stack load' t' ps' d)
  | .str _, _, h, _, _, _, _, _, hf, hf' => by
    cases h with
    | same => exact .pure rfl
    | swap h => exact swap_term (hP _ _ h).2 (hf.resolve_left (hP _ _ h).1) (hf'.resolve_left (hP _ _ h).1)
  | .int _, _, h, _, _, _, _, _, hf, hf' => by
    cases h with
    | same => exact .pure rfl
    | swap h => exact swap_term (hP _ _ h).2 (hf.resolve_left (hP _ _ h).1) (hf'.resolve_left (hP _ _ h).1)
  | .frac _, _, h, _, _, _, _, _, hf, hf' => by
    cases h with
    | same => exact .pure rfl
    | swap h => exact swap_term (hP _ _ h).2 (hf.resolve_left (hP _ _ h).1) (hf'.resolve_left (hP _ _ h).1)
  | .name x, _, h, _, _, _, _, hp, hf, hf' => by
    cases h with
    | same => exact .name hp x
    | swap h => exact swap_term (hP _ _ h).2 (hf.resolve_left (hP _ _ h).1) (hf'.resolve_left (hP _ _ h).1)
  | .dot x t, t', h, hb, ps, ps', d, hp, hf, hf' => by
    rcases inv_dot h with h | rfl
    · exact swap_term (hP _ _ h).2 (hf.resolve_left (hP _ _ h).1) (hf'.resolve_left (hP _ _ h).1)
    simp only [Term.levels, fitsN_sign] at hf
    have ih : ∀ {qs qs' : List Pair}, LikeP S qs qs' → Sim S (Like S)
        (evalTerm fs file stack load t qs (d + 1)) (evalTerm fs' file stack load' t qs' (d + 1)) :=
      fun hp => evalTerm_fold t (.same t) hb hp hf hf
    simp only [evalTerm]
    refine .bind (.name hp x) (fun v v' hv => ?_)
    cases hv.form with
    | arr i i' ty vs vs' hvs _ => exact .bind (ih hp) (fun i i' hi => .of_local (evalIndex_local _ hvs hi))
    | tup i i' ty vs vs' hvs _ => exact .bind (ih hp) (fun i i' hi => .of_local (evalIndex_local _ hvs hi))
    | obj o o' ho => exact .ite Iff.rfl (.fail _ _) (.ite Iff.rfl (.fail _ _) (ih ho.pairs))
    | _ => exact .fail _ _
  | .neg t, _, h, hb, ps, ps', d, hp, hf, hf' => by
    rcases inv_neg h with h | ⟨u, rfl, hx⟩
    · exact swap_term (hP _ _ h).2 (hf.resolve_left (hP _ _ h).1) (hf'.resolve_left (hP _ _ h).1)
    simp only [Term.levels, fitsN_sign] at hf hf'
    simp only [evalTerm]
    exact .bind (evalTerm_fold t hx hb hp hf hf') (fun v v' hv => .of_local (applyUn_local _ hv))
  | .pos t, _, h, hb, ps, ps', d, hp, hf, hf' => by
    rcases inv_pos h with h | ⟨u, rfl, hx⟩
    · exact swap_term (hP _ _ h).2 (hf.resolve_left (hP _ _ h).1) (hf'.resolve_left (hP _ _ h).1)
    simp only [Term.levels, fitsN_sign] at hf hf'
    simp only [evalTerm]
    exact .bind (evalTerm_fold t hx hb hp hf hf') (fun v v' hv => .of_local (applyUn_local _ hv))
  | .arr es, _, h, hb, ps, ps', d, hp, hf, hf' => by
    rcases inv_arr h with h | ⟨u, rfl, hx⟩
    · exact swap_term (hP _ _ h).2 (hf.resolve_left (hP _ _ h).1) (hf'.resolve_left (hP _ _ h).1)
    simp only [Term.levels, fitsN_bracket] at hf hf'
    simp only [evalTerm]
    refine .bind .depthCheck (fun _ _ _ => .bind (evalElems_fold es hx hb hp hf.2 hf'.2) (fun x x' hx => ?_))
    obtain ⟨vs, t⟩ := x
    obtain ⟨vs', t'⟩ := x'
    obtain ⟨h1, rfl⟩ : LikeL S vs vs' ∧ t = t' := hx
    exact arr_new _ h1
  | .tup es, _, h, hb, ps, ps', d, hp, hf, hf' => by
    rcases inv_tup h with h | ⟨u, rfl, hx⟩
    · exact swap_term (hP _ _ h).2 (hf.resolve_left (hP _ _ h).1) (hf'.resolve_left (hP _ _ h).1)
    simp only [Term.levels, fitsN_bracket] at hf hf'
    simp only [evalTerm]
    exact .bind .depthCheck (fun _ _ _ => .bind (evalItems_fold es hx hb hp hf.2 hf'.2) (fun vs vs' hx => tup_new hx))
  | .obj fds, _, h, hb, ps, ps', d, hp, hf, hf' => by
    rcases inv_obj h with h | ⟨u, rfl, hx⟩
    · exact swap_term (hP _ _ h).2 (hf.resolve_left (hP _ _ h).1) (hf'.resolve_left (hP _ _ h).1)
    simp only [Term.levels, fitsN_bracket] at hf hf'
    simp only [evalTerm]
    refine .bind .depthCheck (fun _ _ _ => .bind
      (evalFields_fold fds hx hb (ps := []) (ps' := []) (par := none) (par' := none) rfl rfl hf.2 hf'.2) (fun x x' hx => ?_))
    obtain ⟨q, r⟩ := x
    obtain ⟨q', r'⟩ := x'
    obtain ⟨h1, h2⟩ : LikeP S q q' ∧ LikeO S r r' := hx
    exact .bind .fresh fun i j hij => .pure (by
      show Value.mapIds _ _ = Value.mapIds _ _
      simp only [Value.mapIds, Obj.mapIds, hij.1, hij.2, show Pair.mapIdsL _ q = _ from h1, show Obj.mapIdsP _ r = _ from h2])
  | .incl e, _, h, hb, ps, ps', d, hp, hf, hf' => by
    rcases inv_incl h with h | ⟨u, rfl, hx⟩
    · exact swap_term (hP _ _ h).2 (hf.resolve_left (hP _ _ h).1) (hf'.resolve_left (hP _ _ h).1)
    simp only [Term.levels, fitsN_bracket] at hf hf'
    simp only [evalTerm]
    refine .bind .depthCheck (fun _ _ _ => .bind (evalExpr_fold e hx hb hp hf.2 hf'.2)
      (fun v v' hv => .bind (.of_local (evalKeyword_local hv)) (fun k k' hk => ?_)))
    subst hk
    cases k with
    | some k => exact .fail _ _
    | none => cases hv.form <;> first | exact .fail _ _ | exact hI _ _ (by simp)
  | .inclAs (.mk (.name k) []) e, _, h, hb, ps, ps', d, hp, hf, hf' => by
    rcases inv_inclAs h with h | ⟨j, u, rfl, hkj, hx⟩
    · exact swap_term (hP _ _ h).2 (hf.resolve_left (hP _ _ h).1) (hf'.resolve_left (hP _ _ h).1)
    simp only [Term.levels, fitsN_bracket, fitsN_max] at hf hf'
    have hkw : ∃ kind : IncKind, k = kind.word ∧ ((kind = .str ∧ ∃ p, e = .mk (.str p) [] ∧ B p) ∨ (kind ≠ .str ∧ e.barely B)) := by
      rcases hb with ⟨rfl, p, rfl, hp⟩ | ⟨hk, he⟩
      · exact ⟨.str, rfl, .inl ⟨rfl, p, rfl, hp⟩⟩
      · simp only [List.mem_cons, List.not_mem_nil, or_false] at hk
        rcases hk with rfl | rfl | rfl
        · exact ⟨.obj, rfl, .inr ⟨by decide, he⟩⟩
        · exact ⟨.arr, rfl, .inr ⟨by decide, he⟩⟩
        · exact ⟨.tup, rfl, .inr ⟨by decide, he⟩⟩
    obtain ⟨kind, hk, hb⟩ := hkw
    have hj : j = .mk (.name k) [] := by
      have nk : ¬ (Expr.mk (.name k) []).namesNoKind = true := by
        subst hk; cases kind <;> decide
      cases hkj with
      | swap h => exact absurd (hP _ _ h).2.2.2.1 nk
      | mk h1 h2 =>
        cases h2
        cases h1 with
        | same => rfl
        | swap h => exact absurd (hP _ _ h).2.2.2.1 nk
    subst hj
    simp only [evalTerm]
    refine .bind .depthCheck (fun _ _ _ => ?_)
    intro st st' hr
    have hsim : Sim S (Like S) (evalExpr fs file stack load (.mk (.name k) []) ps (d + 1)) (evalExpr fs' file stack load' (.mk (.name k) []) ps' (d + 1)) := by
      rw [evalExpr_single, evalExpr_single]
      simp only [evalTerm]
      exact .name hp k
    obtain ⟨v, st1, st2, h1, h2, -⟩ := kindWord (fs := fs) (file := file) (stack := stack) (load := load) hk ps (d + 1) st hr.warm.fine
    rcases hsim st st' hr with ⟨x, e1, -⟩ | ⟨a, a', s1, s1', e1, e2, hv, hr1⟩
    · rw [h1] at e1; cases e1
    rw [h1] at e1
    cases e1
    rcases Sim.of_local (evalKeyword_local (file := file) hv) st1 s1' hr1 with ⟨x, e3, -⟩ | ⟨b, b', s2, s2', e3, e4, rfl, hr2⟩
    · rw [h2] at e3; cases e3
    rw [h2] at e3
    cases e3
    rw [EM.bind_ok h1, EM.bind_ok e2, EM.bind_ok h2, EM.bind_ok e4]
    refine (?_ : Sim S (Like S) _ _) _ _ hr2
    refine .bind (Q := fun w w' => Like S w w' ∧ (kind = .str → ∀ p, w = .str p → B p)) ?_ (fun w w' hw => ?_)
    · rcases hb with ⟨rfl, p, rfl, hB⟩ | ⟨hk', hb⟩
      · intro st st' hr
        rcases evalStr_fold hP hx hf.2.2 hf'.2.2 st st' hr with h3 | ⟨a, a', s, s', h3, h4, h5, h6⟩
        · exact .inl h3
        · refine .inr ⟨a, a', s, s', h3, h4, ⟨h5, fun _ q hq => ?_⟩, h6⟩
          have : evalExpr fs file stack load (.mk (.str p) []) ps (d + 1) st = .ok (.str p, st) := by rw [evalExpr_single]; rfl
          rw [this] at h3
          cases h3
          cases hq
          exact hB
      · exact fun st st' hr => (evalExpr_fold e hx hb hp hf.2.2 hf'.2.2 st st' hr).imp_right
          fun ⟨a, a', s, s', h3, h4, h5, h6⟩ => ⟨a, a', s, s', h3, h4, ⟨h5, fun h => absurd h hk'⟩, h6⟩
    · obtain ⟨hw, hB⟩ := hw
      cases hw.form <;> first | exact .fail _ _ | exact hI _ _ (fun h => hB h _ rfl)
  | .inclAs (.mk (.name _) (_ :: _)) _, _, _, h, _, _, _, _, _, _ => h.elim
  | .inclAs (.mk (.str s) r) e, _, h, hb, ps, ps', d, hp, hf, hf' => by
    rcases inv_inclAs h with h | ⟨j, u, rfl, hkj, hx⟩
    · exact swap_term (hP _ _ h).2 (hf.resolve_left (hP _ _ h).1) (hf'.resolve_left (hP _ _ h).1)
    simp only [Term.levels, fitsN_bracket, fitsN_max] at hf hf'
    have hsim : Sim S (Like S) (evalExpr fs file stack load (.mk (.str s) r) ps (d + 1)) (evalExpr fs' file stack load' j ps' (d + 1)) := by
      cases hkj with
      | swap h => exact swap_sim (hP _ _ h).2 (hf.2.1.resolve_left (hP _ _ h).1) (hf'.2.1.resolve_left (hP _ _ h).1)
      | mk h1 h2 =>
        have g := hf.2.1
        have g' := hf'.2.1
        simp only [Expr.levels, fitsN_max] at g g'
        simp only [evalExpr]
        refine .bind ?_ (fun v v' hv => .bind (evalChain_fold r h2 hb.1 hv hp g.2 g'.2) (fun x x' hx => .of_local (sumLeft_local hx.2 hx.1)))
        cases h1 with
        | same => simp only [evalTerm]; exact .pure rfl
        | swap h => exact swap_term (hP _ _ h).2 (g.1.resolve_left (hP _ _ h).1) (g'.1.resolve_left (hP _ _ h).1)
    simp only [evalTerm]
    refine .bind .depthCheck (fun _ _ _ => ?_)
    intro st st' hr
    rcases hsim st st' hr with ⟨x, e1, e2⟩ | ⟨a, a', s1, s1', e1, e2, hv, hr1⟩
    · rw [EM.bind_err e1, EM.bind_err e2]; exact .inl ⟨x, rfl, rfl⟩
    · rw [EM.bind_ok e1, EM.bind_ok e2]
      obtain ⟨w, rfl⟩ := evalExpr_strFirst e1
      cases hv.form
      exact .inl ⟨_, rfl, rfl⟩
  | .inclAs (.mk (.int _) _) _, _, _, h, _, _, _, _, _, _ => h.elim
  | .inclAs (.mk (.frac _) _) _, _, _, h, _, _, _, _, _, _ => h.elim
  | .inclAs (.mk (.dot _ _) _) _, _, _, h, _, _, _, _, _, _ => h.elim
  | .inclAs (.mk (.neg _) _) _, _, _, h, _, _, _, _, _, _ => h.elim
  | .inclAs (.mk (.pos _) _) _, _, _, h, _, _, _, _, _, _ => h.elim
  | .inclAs (.mk (.arr _) _) _, _, _, h, _, _, _, _, _, _ => h.elim
  | .inclAs (.mk (.tup _) _) _, _, _, h, _, _, _, _, _, _ => h.elim
  | .inclAs (.mk (.obj _) _) _, _, _, h, _, _, _, _, _, _ => h.elim
  | .inclAs (.mk (.incl _) _) _, _, _, h, _, _, _, _, _, _ => h.elim
  | .inclAs (.mk (.inclAs _ _) _) _, _, _, h, _, _, _, _, _, _ => h.elim
termination_by structural t => t
theorem evalExpr_fold : ∀ (e : Expr) {e' : Expr}, FoldExpr P e e' → e.barely B → ∀ {ps ps' : List Pair} {d : Nat}, LikeP S ps ps' →
    FitsN N d e.levels → FitsN N d e'.levels → Sim S (Like S) (evalExpr fs file stack load e ps d) (evalExpr fs' file stack load' e' ps' d)
  | .mk t r, _, h, hb, ps, ps', d, hp, hf, hf' => by
    cases h with
    | swap h => exact swap_sim (hP _ _ h).2 (hf.resolve_left (hP _ _ h).1) (hf'.resolve_left (hP _ _ h).1)
    | mk h h' =>
      simp only [Expr.levels, fitsN_max] at hf hf'
      simp only [evalExpr]
      exact .bind (evalTerm_fold t h hb.1 hp hf.1 hf'.1) (fun v v' hv => .bind
        (evalChain_fold r h' hb.2 hv hp hf.2 hf'.2) (fun x x' hx => .of_local (sumLeft_local hx.2 hx.1)))
termination_by structural t => t
theorem evalChain_fold : ∀ (r : List OpTerm) {r' : List OpTerm}, FoldOps P r r' → OpTerm.barelyL B r → ∀ {v v' : Value} {ps ps' : List Pair}
    {d : Nat}, Like S v v' → LikeP S ps ps' → FitsN N d (OpTerm.levelsL r) → FitsN N d (OpTerm.levelsL r') →
    Sim S (LikeChain S) (evalChain fs file stack load r v ps d) (evalChain fs' file stack load' r' v' ps' d)
  | [], _, .nil, _, _, _, _, _, _, hv, _, _, _ => .pure ⟨hv, .nil⟩
  | .mk op t :: r, _, .cons h h', hb, v, v', ps, ps', d, hv, hp, hf, hf' => by
    simp only [OpTerm.levelsL, fitsN_max] at hf hf'
    simp only [evalChain]
    refine .bind (evalTerm_fold t h hb.1 hp hf.1 hf'.1) (fun w w' hw => .ite Iff.rfl ?_ ?_)
    · exact .bind (.of_local (applyBin_local _ hv hw)) (fun u u' hu => evalChain_fold r h' hb.2 hu hp hf.2 hf'.2)
    · exact .bind (evalChain_fold r h' hb.2 hw hp hf.2 hf'.2) (fun x x' hx => .pure ⟨hv, .cons hx.1 hx.2⟩)
termination_by structural t => t
theorem evalElems_fold : ∀ (es : List Expr) {es' : List Expr}, FoldItems P es es' → Expr.barelyL B es → ∀ {ps ps' : List Pair} {d : Nat}
    {t : Ty}, LikeP S ps ps' → FitsN N d (Expr.levelsL es) → FitsN N d (Expr.levelsL es') →
    Sim S (fun x y => LikeL S x.1 y.1 ∧ x.2 = y.2) (evalElems fs file stack load es ps d t) (evalElems fs' file stack load' es' ps' d t)
  | [], _, .nil, _, _, _, _, _, _, _, _ => .pure ⟨rfl, rfl⟩
  | e :: es, _, .cons h h', hb, ps, ps', d, t, hp, hf, hf' => by
    simp only [Expr.levelsL, fitsN_max] at hf hf'
    simp only [evalElems]
    refine .bind (evalExpr_fold e h hb.1 hp hf.1 hf'.1) (fun v v' hv => ?_)
    rw [← hv.getType]
    cases Ty.mostSpecific t v.getType with
    | none => exact .fail _ _
    | some u => exact .bind (evalElems_fold es h' hb.2 hp hf.2 hf'.2) (fun x x' hx => .pure ⟨.cons hv hx.1, hx.2⟩)
termination_by structural t => t
theorem evalItems_fold : ∀ (es : List Expr) {es' : List Expr}, FoldItems P es es' → Expr.barelyL B es → ∀ {ps ps' : List Pair} {d : Nat},
    LikeP S ps ps' → FitsN N d (Expr.levelsL es) → FitsN N d (Expr.levelsL es') →
    Sim S (LikeL S) (evalItems fs file stack load es ps d) (evalItems fs' file stack load' es' ps' d)
  | [], _, .nil, _, _, _, _, _, _, _ => .pure rfl
  | e :: es, _, .cons h h', hb, ps, ps', d, hp, hf, hf' => by
    simp only [Expr.levelsL, fitsN_max] at hf hf'
    simp only [evalItems]
    exact .bind (evalExpr_fold e h hb.1 hp hf.1 hf'.1) (fun v v' hv => .bind
      (evalItems_fold es h' hb.2 hp hf.2 hf'.2) (fun x x' hx => .pure (.cons hv hx)))
termination_by structural t => t
theorem evalFields_fold : ∀ (fds : List Field) {fds' : List Field}, FoldFields P fds fds' → Field.barely B fds → ∀ {ps ps' : List Pair}
    {par par' : Option Obj} {d : Nat}, LikeP S ps ps' → LikeO S par par' → FitsN N d (Field.levelsL fds) → FitsN N d (Field.levelsL fds') →
    Sim S (LikeFields S) (evalFields fs file stack load fds d ps par) (evalFields fs' file stack load' fds' d ps' par')
  | [], _, .nil, _, _, _, _, _, _, hp, hr, _, _ => .pure ⟨hp, hr⟩
  | .mk tg e :: fds, _, .cons h h', hb, _, _, _, _, _, hp, hr, hf, hf' => by
    simp only [Field.levelsL, fitsN_max] at hf hf'
    simp only [evalFields]
    refine .bind (.checkNew hp hr tg) fun _ _ _ => .bind (evalExpr_fold e h hb.1 hp hf.1 hf'.1) fun v v' hv => ?_
    cases tg with
    | field f => exact evalFields_fold fds h' hb.2 (hp.snoc hv f) hr hf.2 hf'.2
    | global g => exact .bind (.setGlobal hv) fun _ _ _ => evalFields_fold fds h' hb.2 hp hr hf.2 hf'.2
    | parent =>
      cases hv.form <;> try exact .fail _ _
      rename_i o o' ho
      exact evalFields_fold fds h' hb.2 hp (show Obj.mapIdsP _ _ = Obj.mapIdsP _ _ by simp only [Obj.mapIdsP, show o.mapIds _ = _ from ho])
        hf.2 hf'.2
termination_by structural t => t
end

theorem evalDoc_fold {d d' : List Field} (h : FoldFields P d d') (hb : Field.barely B d) (hl : N ∨ Field.levelsL d ≤ 63) (hl' : N ∨ Field.levelsL d' ≤ 63) :
    Sim S (LikeObj S) (evalDoc fs file stack load d) (evalDoc fs' file stack load' d') := by
  unfold evalDoc
  exact .bind (evalFields_fold hP hI d h hb (ps := []) (ps' := []) (par := none) (par' := none) rfl rfl
      (hl.imp_right fun _ => by unfold Fits; omega) (hl'.imp_right fun _ => by unfold Fits; omega)) (fun x x' hx => obj_new hx)

theorem evalArrFile_fold {es es' : List Expr} (h : FoldItems P es es') (hb : Expr.barelyL B es) (hl : N ∨ Expr.levelsL es ≤ 63)
    (hl' : N ∨ Expr.levelsL es' ≤ 63) : Sim S (Like S) (evalArrFile fs file stack load es) (evalArrFile fs' file stack load' es') := by
  unfold evalArrFile
  refine .bind (evalElems_fold hP hI es h hb (ps := []) (ps' := []) rfl (hl.imp_right fun _ => by unfold Fits; omega) (hl'.imp_right fun _ => by unfold Fits; omega)) (fun x x' hx => ?_)
  obtain ⟨vs, t⟩ := x
  obtain ⟨vs', t'⟩ := x'
  obtain ⟨h1, rfl⟩ : LikeL S vs vs' ∧ t = t' := hx
  exact arr_new _ h1

theorem evalTupFile_fold {es es' : List Expr} (h : FoldItems P es es') (hb : Expr.barelyL B es) (hl : N ∨ Expr.levelsL es ≤ 63)
    (hl' : N ∨ Expr.levelsL es' ≤ 63) : Sim S (Like S) (evalTupFile fs file stack load es) (evalTupFile fs' file stack load' es') := by
  unfold evalTupFile
  exact .bind (evalItems_fold hP hI es h hb (ps := []) (ps' := []) rfl (hl.imp_right fun _ => by unfold Fits; omega) (hl'.imp_right fun _ => by unfold Fits; omega)) (fun x x' hx => tup_new hx)

end

/-! ## Files -/

section
variable [Unicode] {S : IncKind → Nat} {fs fs' : FS}

theorem _root_.Over.FS.FoldedTo.isFile (h : fs.FoldedTo fs') (path : Str) : fs'.isFile path = fs.isFile path := by
  unfold FS.isFile
  rw [h.resolve]
  cases fs.resolve path with
  | none => rfl
  | some c =>
    simp only
    rcases h.files c with e | ⟨t, t', e, e', -⟩
    · rw [e]
    · rw [e, e']; rfl

theorem _root_.Over.FS.FoldedTo.read (h : fs.FoldedTo fs') (path : Str) : (fs'.read path = fs.read path) ∨
    ∃ t t', fs.read path = .ok t ∧ fs'.read path = .ok t' ∧ TextFolded t t' := by
  unfold FS.read
  rw [h.resolve, h.openErr]
  cases fs.resolve path with
  | none => exact .inl rfl
  | some c =>
    simp only
    rcases h.files c with e | ⟨t, t', e, e', h3⟩
    · rw [e]; exact .inl rfl
    · rw [e, e']; exact .inr ⟨t, t', rfl, rfl, h3⟩

/-- The loaders correspond, where they must. -/
abbrev LoadF (S : IncKind → Nat) (fs fs' : FS) (load load' : Loader) : Prop :=
  ∀ stack kind path, (kind = .str → fs'.read path = fs.read path) → Sim S (Like S) (load stack kind path) (load' stack kind path)

theorem evalInclude_fold (h : fs.FoldedTo fs') {load load' : Loader} (hl : LoadF S fs fs' load load') (file : Option Str) (stack : List Str)
    (kind : IncKind) (p : Str) (hk : kind = .str → KeptIn fs fs' file p) :
    Sim S (Like S) (evalInclude fs file stack load kind p) (evalInclude fs' file stack load' kind p) := by
  unfold KeptIn at hk
  unfold evalInclude
  extract_lets path
  change kind = .str → fs'.read path = fs.read path at hk
  generalize path = path at hk
  rw [h.resolve]
  cases hr : fs.resolve path with
  | none => exact .fail _ _
  | some full =>
    simp only
    rw [h.isFile, h.utf8]
    refine .ite Iff.rfl (.fail _ _) (.ite Iff.rfl (.fail _ _) ?_)
    intro st st' hst
    simp only
    rcases hst.cache full with ⟨h1, h2⟩ | ⟨v, v', h1, h2, h3⟩
    · rw [h1, h2]
      dsimp only
      rcases hl (full :: stack) kind path hk st st' hst with ⟨e, h3, h4⟩ | ⟨a, a', s, s', h3, h4, h5, h6⟩
      · rw [h3, h4]; exact .inl ⟨e, rfl, rfl⟩
      · rw [h3, h4]
        exact .inr ⟨a, a', _, _, rfl, rfl, h5, h6.globals, fun x => LikeGet.insert h5 _ _ fun _ => h6.cache x, h6.warm, h6.warm'⟩
    · rw [h1, h2]; exact .inr ⟨v, v', st, st', rfl, rfl, h3, hst⟩

/-- No replacements. -/
theorem noSwap : ∀ e e' : Expr, (fun _ _ => False : Expr → Expr → Prop) e e' → ¬ True ∧ Swappable e e' := fun _ _ h => h.elim

theorem loadN_fold (hS : ∀ e e', SameAlone e e' → Swappable e e') (h : fs.FoldedTo fs') (hb : fs.BareTextsKept fs') :
    ∀ n, LoadF S fs fs' (loadN fs n) (loadN fs' n)
  | 0, _, _, _, _ => .error _
  | n + 1, stack, kind, path, hk => by
    have ih := loadN_fold hS h hb n
    have hi := fun kind p => evalInclude_fold h ih (some path) stack kind p
    have hP : ∀ e e', SameAlone e e' → ¬ False ∧ Swappable e e' := fun e e' h => ⟨id, hS e e' h⟩
    have obj : ∀ {d d' : EM Obj}, Sim S (LikeObj S) d d' → Sim S (Like S) (EM.ownGlobals (do let o ← d; pure (.obj o)))
        (EM.ownGlobals (do let o ← d'; pure (.obj o))) := fun hd => .ownGlobals (.bind hd fun o o' ho => .pure (by
      show Value.mapIds _ _ = Value.mapIds _ _
      simp only [Value.mapIds, show o.mapIds _ = _ from ho]))
    have same : ∀ t, fs.read path = .ok t → fs'.read path = .ok t → Sim S (Like S) (loadN fs (n + 1) stack kind path)
        (loadN fs' (n + 1) stack kind path) := by
      intro t e e'
      obtain ⟨hd, he⟩ := hb path t e
      simp only [loadN, e, e']
      cases kind with
      | str => exact .pure rfl
      | obj =>
        refine .dite Iff.rfl (fun hx _ => ?_) (fun _ _ => .error _)
        exact obj (evalDoc_fold noSwap hi (fields_refl _) (hd _ hx.choose_spec) (.inl trivial) (.inl trivial))
      | arr =>
        refine .dite Iff.rfl (fun hx _ => ?_) (fun _ _ => .error _)
        exact .ownGlobals (evalArrFile_fold noSwap hi (items_refl _) (he _ hx.choose_spec) (.inl trivial) (.inl trivial))
      | tup =>
        refine .dite Iff.rfl (fun hx _ => ?_) (fun _ _ => .error _)
        exact .ownGlobals (evalTupFile_fold noSwap hi (items_refl _) (he _ hx.choose_spec) (.inl trivial) (.inl trivial))
    rcases h.read path with e | ⟨t, t', e, e', ht⟩
    · cases hr : fs.read path with
      | error m => rw [hr] at e; simp only [loadN, e, hr]; exact .error _
      | ok t => exact same t hr (e.trans hr)
    · rcases ht with rfl | ⟨f1, f2, f3, f4⟩
      · exact same t e e'
      · obtain ⟨hd, he⟩ := hb path t e
        simp only [loadN, e, e']
        cases kind with
        | str =>
          have := hk rfl
          rw [e, e'] at this
          cases this
          exact .pure rfl
        | obj =>
          refine .dite ⟨fun ⟨d, h1⟩ => (f1 d h1).2.imp fun _ h2 => h2.1, fun ⟨d, h1⟩ => f2 d h1⟩ (fun hx hx' => ?_) (fun _ _ => .error _)
          obtain ⟨l, d', h1, h2, l'⟩ := f1 _ hx.choose_spec
          rw [← spDoc_unique hx'.choose_spec h1] at h2 l'
          exact obj (evalDoc_fold hP hi h2 (hd _ hx.choose_spec) (.inr l) (.inr l'))
        | arr =>
          refine .dite ⟨fun ⟨d, h1⟩ => (f3 d h1).2.imp fun _ h2 => h2.1, fun ⟨d, h1⟩ => f4 d h1⟩ (fun hx hx' => ?_) (fun _ _ => .error _)
          obtain ⟨l, d', h1, h2, l'⟩ := f3 _ hx.choose_spec
          rw [← spItems_unique hx'.choose_spec h1] at h2 l'
          exact .ownGlobals (evalArrFile_fold hP hi h2 (he _ hx.choose_spec) (.inr l) (.inr l'))
        | tup =>
          refine .dite ⟨fun ⟨d, h1⟩ => (f3 d h1).2.imp fun _ h2 => h2.1, fun ⟨d, h1⟩ => f4 d h1⟩ (fun hx hx' => ?_) (fun _ _ => .error _)
          obtain ⟨l, d', h1, h2, l'⟩ := f3 _ hx.choose_spec
          rw [← spItems_unique hx'.choose_spec h1] at h2 l'
          exact .ownGlobals (evalTupFile_fold hP hi h2 (he _ hx.choose_spec) (.inr l) (.inr l'))

/-- The meanings of two documents in two projects. -/
theorem meaning_fold_files (hS : ∀ e e', SameAlone e e' → Swappable e e') (h : fs.FoldedTo fs') (hb : fs.BareTextsKept fs')
    {file : Option Str} {stack : List Str} {d d' : List Field}
    (hd : d = d' ∨ FoldDoc d d' ∧ Field.levelsL d ≤ 63 ∧ Field.levelsL d' ≤ 63) (hk : Field.barely (KeptIn fs fs' file) d) {rt rt' : Rt}
    (w : Warm S rt) (w' : Warm S rt') :
    (∃ e, meaning fs file stack d rt = .error e ∧ meaning fs' file stack d' rt' = .error e) ∨
    ∃ o o' st st', meaning fs file stack d rt = .ok (o, st) ∧ meaning fs' file stack d' rt' = .ok (o', st') ∧ LikeObj S o o' := by
  rw [meaning_enough fs _ (Nat.le_max_left fs.nodes.length fs'.nodes.length) _ _ _ _ w.fine,
    meaning_enough fs' _ (Nat.le_max_right fs.nodes.length fs'.nodes.length) _ _ _ _ w'.fine]
  have hi := fun kind p => evalInclude_fold h (loadN_fold (S := S) hS h hb (max fs.nodes.length fs'.nodes.length)) file stack kind p
  have key : Sim S (LikeObj S) (evalDoc fs file stack (loadN fs (max fs.nodes.length fs'.nodes.length)) d)
      (evalDoc fs' file stack (loadN fs' (max fs.nodes.length fs'.nodes.length)) d') := by
    rcases hd with rfl | ⟨hd, l, l'⟩
    · exact evalDoc_fold noSwap hi (fields_refl _) hk (.inl trivial) (.inl trivial)
    · exact evalDoc_fold (N := False) (fun e e' h => ⟨id, hS e e' h⟩) hi hd hk (.inr l) (.inr l')
  rcases key ⟨[], [], rt⟩ ⟨[], [], rt'⟩ ⟨fun _ _ => LikeGet.refl _, fun _ => LikeGet.refl _, w, w'⟩ with h1 | ⟨o, o', st, st', h1, h2, h3, -⟩
  · exact .inl h1
  · exact .inr ⟨o, o', st, st', h1, h2, h3⟩

end

end FF
end Over
