import Verif.Lemmas.Include
import Verif.Lemmas.Layout
import Verif.Lemmas.Sim4
import Verif.Spec.Project

/-!
# Respelling the files of a project

Evaluation uses only the trees that the files spell, except for files included as `Str`.
-/

set_option linter.unusedSectionVars false
set_option linter.unusedVariables false

namespace Over

/-- The same results from good states, which are good states again. -/
def EqF {α : Type} (m m' : EM α) : Prop :=
  ∀ st : ESt, st.rt.Fine → m st = m' st ∧ ∀ a st', m st = .ok (a, st') → st'.rt.Fine

section
variable {α β : Type}

theorem EqF.bind {m m' : EM α} {f f' : α → EM β} (h : EqF m m') (hf : ∀ a, EqF (f a) (f' a)) : EqF (m >>= f) (m' >>= f') := by
  intro st hst
  obtain ⟨h1, h2⟩ := h st hst
  cases hm : m st with
  | error e =>
    rw [EM.bind_err hm, EM.bind_err (h1 ▸ hm)]
    exact ⟨rfl, fun _ _ h => by cases h⟩
  | ok x =>
    obtain ⟨a, st1⟩ := x
    rw [EM.bind_ok hm, EM.bind_ok (h1 ▸ hm)]
    exact hf a st1 (h2 _ _ hm)

theorem EqF.pure (a : α) : EqF (pure a) (pure a) := fun _ hst => ⟨rfl, fun _ _ h => by cases h; exact hst⟩

theorem EqF.fail (file : Option Str) (k : SemKind) : EqF (EM.fail file k : EM α) (EM.fail file k) :=
  fun _ _ => ⟨rfl, fun _ _ h => by cases h⟩

theorem EqF.err (e : SemErr) : EqF (fun _ => .error e : EM α) (fun _ => .error e) :=
  fun _ _ => ⟨rfl, fun _ _ h => by cases h⟩

theorem EqF.of_post {m : EM α} {Q : α → GSt Unit → Prop} (h : ∀ σ, fineInv.I σ → epost m σ Q)
    (hQ : ∀ a σ, Q a σ → fineInv.I σ) : EqF m m := by
  intro st hst
  refine ⟨rfl, fun a st' ha => ?_⟩
  obtain ⟨g, hg⟩ := h (st, ()) hst a st' ha
  exact hQ _ _ hg

theorem EqF.good {m : EM Value} (h : ∀ σ, fineInv.I σ → epost m σ (fineInv.Good σ)) : EqF m m := by
  intro st hst
  refine ⟨rfl, fun a st' ha => ?_⟩
  obtain ⟨g, hg⟩ := h (st, ()) hst a st' ha
  exact hg.1

theorem EqF.fresh : EqF EM.fresh EM.fresh := by
  intro st hst
  refine ⟨rfl, fun a st' ha => ?_⟩
  cases ha
  exact Rt.next_fine hst

theorem EqF.ite {c : Prop} [Decidable c] {a b a' b' : EM α} (h1 : c → EqF a a') (h2 : ¬ c → EqF b b') :
    EqF (if c then a else b) (if c then a' else b') := by
  by_cases h : c
  · rw [if_pos h, if_pos h]; exact h1 h
  · rw [if_neg h, if_neg h]; exact h2 h

end

theorem EqF.dite {α : Type} {c c' : Prop} {_ : Decidable c} {_ : Decidable c'} {a : c → EM α} {b : ¬ c → EM α} {a' : c' → EM α}
    {b' : ¬ c' → EM α} (hc : c ↔ c') (h1 : ∀ h h', EqF (a h) (a' h')) (h2 : ∀ h h', EqF (b h) (b' h')) :
    EqF (dite c a b) (dite c' a' b') := by
  by_cases h : c
  · rw [dif_pos h, dif_pos (hc.1 h)]; exact h1 _ _
  · rw [dif_neg h, dif_neg (fun x => h (hc.2 x))]; exact h2 _ _

theorem choose_same {α : Type} {p q : α → Prop} (h : ∀ a, p a ↔ q a) (hp : ∃ a, p a) (hq : ∃ a, q a) : hq.choose = hp.choose := by
  obtain rfl : p = q := funext fun a => propext (h a)
  rfl

section
variable {file : Option Str}

theorem EqF.depthCheck (d : Nat) : EqF (depthCheck file d) (depthCheck file d) := by
  unfold Over.depthCheck
  exact .ite (fun _ => .fail _ _) (fun _ => .pure _)

theorem EqF.name (pairs : List Pair) (x : Str) : EqF (evalName file pairs x) (evalName file pairs x) :=
  .good fun _ h => fineInv.evalName_good h (fun _ _ => trivial) x

theorem EqF.index (oob : Nat → OverError) (vs : List Value) (v : Value) : EqF (evalIndex file oob vs v) (evalIndex file oob vs v) :=
  .good fun _ h => fineInv.evalIndex_good h (fun _ _ => trivial) v

theorem EqF.un (op : UnOp) (v : Value) : EqF (applyUn file op v) (applyUn file op v) := .good fun _ h => fineInv.applyUn_good h

theorem EqF.bin (op : BinOp) (v w : Value) : EqF (applyBin file op v w) (applyBin file op v w) :=
  .good fun _ h => fineInv.applyBin_good h trivial trivial

theorem EqF.sum : ∀ (r : List (BinOp × Value)) (v : Value), EqF (sumLeft file v r) (sumLeft file v r)
  | [], v => .pure v
  | (op, w) :: r, v => .bind (.bin op v w) fun u => EqF.sum r u

theorem EqF.keyword (v : Value) : EqF (evalKeyword file v) (evalKeyword file v) := by
  intro st hst
  refine ⟨rfl, fun a st' ha => ?_⟩
  obtain ⟨g, hg⟩ := fineInv.evalKeyword_good (σ := (st, ())) hst v a st' ha
  exact hg.1

theorem EqF.checkNew (pairs : List Pair) (parent : Option Obj) (tg : Target) :
    EqF (checkNew file pairs parent tg) (checkNew file pairs parent tg) := by
  cases tg with
  | field f => exact .ite (fun _ => .fail _ _) (fun _ => .pure _)
  | parent => exact .ite (fun _ => .fail _ _) (fun _ => .pure _)
  | global g =>
    intro st hst
    refine ⟨rfl, fun a st' ha => ?_⟩
    simp only [Over.checkNew] at ha
    split at ha
    · cases ha
    · cases ha; exact hst

end

theorem EqF.setGlobal (g : Str) (v : Value) : EqF (setGlobal g v) (setGlobal g v) :=
  fun _ hst => ⟨rfl, fun _ _ ha => by cases ha; exact hst⟩

theorem EqF.ownGlobals {α : Type} {m m' : EM α} (h : EqF m m') : EqF (EM.ownGlobals m) (EM.ownGlobals m') := by
  intro st hst
  obtain ⟨h1, h2⟩ := h { st with globals := [] } hst
  unfold EM.ownGlobals
  rw [← h1]
  refine ⟨rfl, fun a st' ha => ?_⟩
  cases hm : m { st with globals := [] } with
  | error e => rw [hm] at ha; cases ha
  | ok x =>
    obtain ⟨b, st1⟩ := x
    rw [hm] at ha
    cases ha
    exact (h2 _ _ hm : st1.rt.Fine)

/-- Asking for the keyword object of an include. -/
theorem kindWord {file : Option Str} {fs : FS} {stack : List Str} {load : Loader} {k : Str} {kind : IncKind} (hk : k = kind.word)
    (pairs : List Pair) (d : Nat) (st : ESt) (hst : st.rt.Fine) :
    ∃ v st1 st2, evalExpr fs file stack load (.mk (.name k) []) pairs d st = .ok (v, st1) ∧
      evalKeyword file v st1 = .ok (some kind, st2) ∧ st2.rt.Fine := by
  obtain ⟨i, st1, h1, h2⟩ := keywordId_step kind st
  have h3 : evalExpr fs file stack load (.mk (.name k) []) pairs d st = .ok (.obj (.mk i [] none), st1) := by
    have hn : evalName file pairs k st = .ok (.obj (.mk i [] none), st1) := by
      have : evalName file pairs k = (do let i ← EM.keywordId kind; pure (.obj (.mk i [] none))) := by
        subst hk
        cases kind <;> rfl
      rw [this, EM.bind_ok h1]
      rfl
    simp only [evalExpr, evalTerm, evalChain]
    rw [EM.bind_ok hn]
    rfl
  obtain ⟨kk, st2, h4, -, -, h5⟩ := evalKeyword_known (file := file) h2.now
  obtain ⟨rfl, h6⟩ := h5 (h2.fine hst)
  exact ⟨_, _, _, h3, h4, h6⟩

theorem applyBin_strFirst {file : Option Str} {op : BinOp} {s : Str} {b v : Value} {st st' : ESt}
    (h : applyBin file op (.str s) b st = .ok (v, st')) : ∃ w, v = .str w := by
  unfold applyBin at h
  cases op <;> cases b <;> first | (cases h; exact ⟨_, rfl⟩) | cases h

theorem sumLeft_strFirst {file : Option Str} : ∀ (r : List (BinOp × Value)) {s : Str} {v : Value} {st st' : ESt},
    sumLeft file (.str s) r st = .ok (v, st') → ∃ w, v = .str w
  | [], s, v, st, st', h => by cases h; exact ⟨_, rfl⟩
  | (op, b) :: r, s, v, st, st', h => by
    simp only [sumLeft] at h
    cases hm : applyBin file op (.str s) b st with
    | error e => rw [EM.bind_err hm] at h; cases h
    | ok x =>
      obtain ⟨u, st1⟩ := x
      rw [EM.bind_ok hm] at h
      obtain ⟨w, rfl⟩ := applyBin_strFirst hm
      exact sumLeft_strFirst r h

theorem evalChain_strFirst {fs : FS} {file : Option Str} {stack : List Str} {load : Loader} : ∀ (r : List OpTerm) {s : Str} {ps : List Pair} {d : Nat}
    {x : Value × List (BinOp × Value)} {st st' : ESt}, evalChain fs file stack load r (.str s) ps d st = .ok (x, st') → ∃ w, x.1 = .str w
  | [], s, ps, d, x, st, st', h => by
    simp only [evalChain] at h
    cases h; exact ⟨_, rfl⟩
  | .mk op t :: r, s, ps, d, x, st, st', h => by
    simp only [evalChain] at h
    cases hm : evalTerm fs file stack load t ps d st with
    | error e => rw [EM.bind_err hm] at h; cases h
    | ok y =>
      obtain ⟨b, st1⟩ := y
      rw [EM.bind_ok hm] at h
      split at h
      · cases hb : applyBin file op (.str s) b st1 with
        | error e => rw [EM.bind_err hb] at h; cases h
        | ok y =>
          obtain ⟨u, st2⟩ := y
          rw [EM.bind_ok hb] at h
          obtain ⟨w, rfl⟩ := applyBin_strFirst hb
          exact evalChain_strFirst r h
      · cases hb : evalChain fs file stack load r b ps d st1 with
        | error e => rw [EM.bind_err hb] at h; cases h
        | ok y =>
          obtain ⟨u, st2⟩ := y
          rw [EM.bind_ok hb] at h
          cases h
          exact ⟨_, rfl⟩

/-- A chain that begins with a string literal has a string as value, or none. -/
theorem evalExpr_strFirst {fs : FS} {file : Option Str} {stack : List Str} {load : Loader} {s : Str} {r : List OpTerm} {ps : List Pair} {d : Nat}
    {v : Value} {st st' : ESt} (h : evalExpr fs file stack load (.mk (.str s) r) ps d st = .ok (v, st')) : ∃ w, v = .str w := by
  simp only [evalExpr, evalTerm] at h
  change (evalChain fs file stack load r (.str s) ps d >>= fun x => sumLeft file x.1 x.2) st = _ at h
  cases hm : evalChain fs file stack load r (.str s) ps d st with
  | error e => rw [EM.bind_err hm] at h; cases h
  | ok x =>
    rw [EM.bind_ok hm] at h
    obtain ⟨⟨p, sums⟩, st1⟩ := x
    obtain ⟨w, hw⟩ := evalChain_strFirst r hm
    simp only at hw
    subst hw
    exact sumLeft_strFirst sums h

section
variable {fs fs' : FS} {file : Option Str} {stack : List Str} {load load' : Loader}

/-- Includes that read no bare text, and the ones of texts that satisfy `P`. -/
structure InclF (fs fs' : FS) (file : Option Str) (stack : List Str) (load load' : Loader) (P : Str → Prop) : Prop where
  tree : ∀ kind p, kind ≠ .str → EqF (evalInclude fs file stack load kind p) (evalInclude fs' file stack load' kind p)
  text : ∀ p, P p → EqF (evalInclude fs file stack load .str p) (evalInclude fs' file stack load' .str p)

variable {P : Str → Prop} (hi : InclF fs fs' file stack load load' P)
include hi

mutual
theorem evalTerm_eqF : ∀ (t : Term) (_ : t.barely P) (ps : List Pair) (d : Nat),
    EqF (evalTerm fs file stack load t ps d) (evalTerm fs' file stack load' t ps d)
  | .str s, _, ps, d => .pure _
  | .int n, _, ps, d => .pure _
  | .frac q, _, ps, d => .pure _
  | .name x, _, ps, d => .name ps x
  | .dot x t, h, ps, d => by
    simp only [evalTerm]
    refine .bind (.name ps x) fun v => ?_
    cases v with
    | arr i ty vs => exact .bind (evalTerm_eqF t h ps (d + 1)) fun i => .index _ _ _
    | tup i ty vs => exact .bind (evalTerm_eqF t h ps (d + 1)) fun i => .index _ _ _
    | obj o => exact .ite (fun _ => .fail _ _) fun _ => .ite (fun _ => .fail _ _) fun _ => evalTerm_eqF t h o.pairs (d + 1)
    | _ => exact .fail _ _
  | .neg t, h, ps, d => .bind (evalTerm_eqF t h ps (d + 1)) fun v => .un _ _
  | .pos t, h, ps, d => .bind (evalTerm_eqF t h ps (d + 1)) fun v => .un _ _
  | .arr es, h, ps, d => .bind (.depthCheck _) fun _ => .bind (evalElems_eqF es h ps (d + 1) .any) fun x => .bind .fresh fun _ => .pure _
  | .tup es, h, ps, d => .bind (.depthCheck _) fun _ => .bind (evalItems_eqF es h ps (d + 1)) fun x => .bind .fresh fun _ => .pure _
  | .obj fds, h, ps, d => .bind (.depthCheck _) fun _ => .bind (evalFields_eqF fds h (d + 1) [] none) fun x => .bind .fresh fun _ => .pure _
  | .incl e, h, ps, d => by
    simp only [evalTerm]
    refine .bind (.depthCheck _) fun _ => .bind (evalExpr_eqF e h ps (d + 1)) fun v => .bind (.keyword v) fun k => ?_
    cases k with
    | some k => exact .fail _ _
    | none =>
      cases v with
      | str p => exact hi.tree .obj p (by decide)
      | _ => exact .fail _ _
  | .inclAs (.mk (.name k) []) e, h, ps, d => by
    have key : ∀ kind, k = kind.word → (∀ ps d, EqF (evalExpr fs file stack load e ps d) (evalExpr fs' file stack load' e ps d)) →
        (∀ p, (kind ≠ .str ∨ (e = .mk (.str p) [] ∧ P p)) →
          EqF (evalInclude fs file stack load kind p) (evalInclude fs' file stack load' kind p)) →
        (kind = .str → ∃ p, e = .mk (.str p) [] ∧ P p) →
        EqF (evalTerm fs file stack load (.inclAs (.mk (.name k) []) e) ps d)
          (evalTerm fs' file stack load' (.inclAs (.mk (.name k) []) e) ps d) := by
      intro kind hk he hinc hs
      simp only [evalTerm]
      refine .bind (.depthCheck _) fun _ => ?_
      intro st hst
      obtain ⟨v, st1, st2, h1, h2, h3⟩ := kindWord (fs := fs) (file := file) (stack := stack) (load := load) hk ps (d + 1) st hst
      have h1' : evalExpr fs' file stack load' (.mk (.name k) []) ps (d + 1) st = .ok (v, st1) := by
        rw [← h1]; simp only [evalExpr, evalTerm, evalChain]
      rw [EM.bind_ok h1, EM.bind_ok h1', EM.bind_ok h2, EM.bind_ok h2]
      by_cases hkd : kind = .str
      · obtain ⟨p, rfl, hp⟩ := hs hkd
        exact hinc p (.inr ⟨rfl, hp⟩) st2 h3
      · refine (EqF.bind (he ps (d + 1)) fun w => ?_) st2 h3
        cases w with
        | str p => exact hinc p (.inl hkd)
        | _ => exact .fail _ _
    rcases h with ⟨rfl, p, rfl, hp⟩ | ⟨hk, he⟩
    · exact key .str rfl (fun _ _ => .pure _) (fun q hq => by
        rcases hq with h | ⟨h, h'⟩
        · exact absurd rfl h
        · exact hi.text q h') (fun _ => ⟨p, rfl, hp⟩)
    · have hx := evalExpr_eqF e he
      simp only [List.mem_cons, List.not_mem_nil, or_false] at hk
      rcases hk with rfl | rfl | rfl
      · exact key .obj rfl hx (fun q _ => hi.tree _ q (by decide)) (by simp)
      · exact key .arr rfl hx (fun q _ => hi.tree _ q (by decide)) (by simp)
      · exact key .tup rfl hx (fun q _ => hi.tree _ q (by decide)) (by simp)
  | .inclAs (.mk (.name _) (_ :: _)) _, h, _, _ => h.elim
  | .inclAs (.mk (.str s) r) e, h, ps, d => by
    simp only [evalTerm]
    refine .bind (.depthCheck _) fun _ => ?_
    intro st hst
    have hk : EqF (evalExpr fs file stack load (.mk (.str s) r) ps (d + 1)) (evalExpr fs' file stack load' (.mk (.str s) r) ps (d + 1)) := by
      simp only [evalExpr, evalTerm]
      exact .bind (.pure _) fun v => .bind (evalChain_eqF r h.1 v ps (d + 1)) fun x => .sum _ _
    obtain ⟨h1, h2⟩ := hk st hst
    cases hm : evalExpr fs file stack load (.mk (.str s) r) ps (d + 1) st with
    | error e =>
      rw [EM.bind_err hm, EM.bind_err (h1 ▸ hm)]
      exact ⟨rfl, fun _ _ h => by cases h⟩
    | ok x =>
      obtain ⟨v, st1⟩ := x
      have hm' : evalExpr fs' file stack load' (.mk (.str s) r) ps (d + 1) st = .ok (v, st1) := h1 ▸ hm
      rw [EM.bind_ok hm, EM.bind_ok hm']
      obtain ⟨w, rfl⟩ := evalExpr_strFirst hm
      exact EqF.fail _ _ st1 (h2 _ _ hm)
  | .inclAs (.mk (.int _) _) _, h, _, _ => h.elim
  | .inclAs (.mk (.frac _) _) _, h, _, _ => h.elim
  | .inclAs (.mk (.dot _ _) _) _, h, _, _ => h.elim
  | .inclAs (.mk (.neg _) _) _, h, _, _ => h.elim
  | .inclAs (.mk (.pos _) _) _, h, _, _ => h.elim
  | .inclAs (.mk (.arr _) _) _, h, _, _ => h.elim
  | .inclAs (.mk (.tup _) _) _, h, _, _ => h.elim
  | .inclAs (.mk (.obj _) _) _, h, _, _ => h.elim
  | .inclAs (.mk (.incl _) _) _, h, _, _ => h.elim
  | .inclAs (.mk (.inclAs _ _) _) _, h, _, _ => h.elim
termination_by structural t => t
theorem evalExpr_eqF : ∀ (e : Expr) (_ : e.barely P) (ps : List Pair) (d : Nat),
    EqF (evalExpr fs file stack load e ps d) (evalExpr fs' file stack load' e ps d)
  | .mk t r, h, ps, d => .bind (evalTerm_eqF t h.1 ps d) fun v => .bind (evalChain_eqF r h.2 v ps d) fun x => .sum _ _
termination_by structural t => t
theorem evalChain_eqF : ∀ (r : List OpTerm) (_ : OpTerm.barelyL P r) (v : Value) (ps : List Pair) (d : Nat),
    EqF (evalChain fs file stack load r v ps d) (evalChain fs' file stack load' r v ps d)
  | [], _, v, ps, d => .pure _
  | .mk op t :: r, h, v, ps, d => by
    simp only [evalChain]
    refine .bind (evalTerm_eqF t h.1 ps d) fun w => .ite (fun _ => .bind (.bin _ _ _) fun u => evalChain_eqF r h.2 u ps d)
      (fun _ => .bind (evalChain_eqF r h.2 w ps d) fun x => .pure _)
termination_by structural t => t
theorem evalElems_eqF : ∀ (es : List Expr) (_ : Expr.barelyL P es) (ps : List Pair) (d : Nat) (t : Ty),
    EqF (evalElems fs file stack load es ps d t) (evalElems fs' file stack load' es ps d t)
  | [], _, ps, d, t => .pure _
  | e :: es, h, ps, d, t => by
    simp only [evalElems]
    refine .bind (evalExpr_eqF e h.1 ps d) fun v => ?_
    split
    · exact .fail _ _
    · exact .bind (evalElems_eqF es h.2 ps d _) fun x => .pure _
termination_by structural t => t
theorem evalItems_eqF : ∀ (es : List Expr) (_ : Expr.barelyL P es) (ps : List Pair) (d : Nat),
    EqF (evalItems fs file stack load es ps d) (evalItems fs' file stack load' es ps d)
  | [], _, ps, d => .pure _
  | e :: es, h, ps, d => .bind (evalExpr_eqF e h.1 ps d) fun v => .bind (evalItems_eqF es h.2 ps d) fun x => .pure _
termination_by structural t => t
theorem evalFields_eqF : ∀ (fds : List Field) (_ : Field.barely P fds) (d : Nat) (ps : List Pair) (par : Option Obj),
    EqF (evalFields fs file stack load fds d ps par) (evalFields fs' file stack load' fds d ps par)
  | [], _, d, ps, par => .pure _
  | .mk tg e :: fds, h, d, ps, par => by
    simp only [evalFields]
    refine .bind (.checkNew _ _ _) fun _ => .bind (evalExpr_eqF e h.1 ps d) fun v => ?_
    cases tg with
    | field f => exact evalFields_eqF fds h.2 _ _ _
    | global g => exact .bind (.setGlobal _ _) fun _ => evalFields_eqF fds h.2 _ _ _
    | parent =>
      cases v with
      | obj o => exact evalFields_eqF fds h.2 _ _ _
      | _ => exact .fail _ _
termination_by structural t => t
end

theorem evalDoc_eqF (d : List Field) (h : Field.barely P d) : EqF (evalDoc fs file stack load d) (evalDoc fs' file stack load' d) :=
  .bind (evalFields_eqF hi d h 1 [] none) fun _ => .bind .fresh fun _ => .pure _

theorem evalArrFile_eqF (es : List Expr) (h : Expr.barelyL P es) :
    EqF (evalArrFile fs file stack load es) (evalArrFile fs' file stack load' es) :=
  .bind (evalElems_eqF hi es h [] 1 .any) fun _ => .bind .fresh fun _ => .pure _

theorem evalTupFile_eqF (es : List Expr) (h : Expr.barelyL P es) :
    EqF (evalTupFile fs file stack load es) (evalTupFile fs' file stack load' es) :=
  .bind (evalItems_eqF hi es h [] 1) fun _ => .bind .fresh fun _ => .pure _

end

section
variable {fs fs' : FS} {file : Option Str} {stack : List Str} {load load' : Loader}
  (ha : ∀ kind p, EqF (evalInclude fs file stack load kind p) (evalInclude fs' file stack load' kind p))
include ha

mutual
theorem evalTerm_eqA : ∀ (t : Term) (ps : List Pair) (d : Nat),
    EqF (evalTerm fs file stack load t ps d) (evalTerm fs' file stack load' t ps d)
  | .str s, ps, d => .pure _
  | .int n, ps, d => .pure _
  | .frac q, ps, d => .pure _
  | .name x, ps, d => .name ps x
  | .dot x t, ps, d => by
    simp only [evalTerm]
    refine .bind (.name ps x) fun v => ?_
    cases v with
    | arr i ty vs => exact .bind (evalTerm_eqA t ps (d + 1)) fun i => .index _ _ _
    | tup i ty vs => exact .bind (evalTerm_eqA t ps (d + 1)) fun i => .index _ _ _
    | obj o => exact .ite (fun _ => .fail _ _) fun _ => .ite (fun _ => .fail _ _) fun _ => evalTerm_eqA t o.pairs (d + 1)
    | _ => exact .fail _ _
  | .neg t, ps, d => .bind (evalTerm_eqA t ps (d + 1)) fun v => .un _ _
  | .pos t, ps, d => .bind (evalTerm_eqA t ps (d + 1)) fun v => .un _ _
  | .arr es, ps, d => .bind (.depthCheck _) fun _ => .bind (evalElems_eqA es ps (d + 1) .any) fun x => .bind .fresh fun _ => .pure _
  | .tup es, ps, d => .bind (.depthCheck _) fun _ => .bind (evalItems_eqA es ps (d + 1)) fun x => .bind .fresh fun _ => .pure _
  | .obj fds, ps, d => .bind (.depthCheck _) fun _ => .bind (evalFields_eqA fds (d + 1) [] none) fun x => .bind .fresh fun _ => .pure _
  | .incl e, ps, d => by
    simp only [evalTerm]
    refine .bind (.depthCheck _) fun _ => .bind (evalExpr_eqA e ps (d + 1)) fun v => .bind (.keyword v) fun k => ?_
    cases k with
    | some k => exact .fail _ _
    | none =>
      cases v with
      | str p => exact ha .obj p
      | _ => exact .fail _ _
  | .inclAs k e, ps, d => by
    simp only [evalTerm]
    refine .bind (.depthCheck _) fun _ => .bind (evalExpr_eqA k ps (d + 1)) fun v => .bind (.keyword v) fun kd => ?_
    cases kd with
    | none => exact .fail _ _
    | some kd =>
      refine .bind (evalExpr_eqA e ps (d + 1)) fun w => ?_
      cases w with
      | str p => exact ha kd p
      | _ => exact .fail _ _
termination_by structural t => t
theorem evalExpr_eqA : ∀ (e : Expr) (ps : List Pair) (d : Nat),
    EqF (evalExpr fs file stack load e ps d) (evalExpr fs' file stack load' e ps d)
  | .mk t r, ps, d => .bind (evalTerm_eqA t ps d) fun v => .bind (evalChain_eqA r v ps d) fun x => .sum _ _
termination_by structural t => t
theorem evalChain_eqA : ∀ (r : List OpTerm) (v : Value) (ps : List Pair) (d : Nat),
    EqF (evalChain fs file stack load r v ps d) (evalChain fs' file stack load' r v ps d)
  | [], v, ps, d => .pure _
  | .mk op t :: r, v, ps, d => by
    simp only [evalChain]
    refine .bind (evalTerm_eqA t ps d) fun w => .ite (fun _ => .bind (.bin _ _ _) fun u => evalChain_eqA r u ps d)
      (fun _ => .bind (evalChain_eqA r w ps d) fun x => .pure _)
termination_by structural t => t
theorem evalElems_eqA : ∀ (es : List Expr) (ps : List Pair) (d : Nat) (t : Ty),
    EqF (evalElems fs file stack load es ps d t) (evalElems fs' file stack load' es ps d t)
  | [], ps, d, t => .pure _
  | e :: es, ps, d, t => by
    simp only [evalElems]
    refine .bind (evalExpr_eqA e ps d) fun v => ?_
    split
    · exact .fail _ _
    · exact .bind (evalElems_eqA es ps d _) fun x => .pure _
termination_by structural t => t
theorem evalItems_eqA : ∀ (es : List Expr) (ps : List Pair) (d : Nat),
    EqF (evalItems fs file stack load es ps d) (evalItems fs' file stack load' es ps d)
  | [], ps, d => .pure _
  | e :: es, ps, d => .bind (evalExpr_eqA e ps d) fun v => .bind (evalItems_eqA es ps d) fun x => .pure _
termination_by structural t => t
theorem evalFields_eqA : ∀ (fds : List Field) (d : Nat) (ps : List Pair) (par : Option Obj),
    EqF (evalFields fs file stack load fds d ps par) (evalFields fs' file stack load' fds d ps par)
  | [], d, ps, par => .pure _
  | .mk tg e :: fds, d, ps, par => by
    simp only [evalFields]
    refine .bind (.checkNew _ _ _) fun _ => .bind (evalExpr_eqA e ps d) fun v => ?_
    cases tg with
    | field f => exact evalFields_eqA fds _ _ _
    | global g => exact .bind (.setGlobal _ _) fun _ => evalFields_eqA fds _ _ _
    | parent =>
      cases v with
      | obj o => exact evalFields_eqA fds _ _ _
      | _ => exact .fail _ _
termination_by structural t => t
end

theorem evalDoc_eqA (d : List Field) : EqF (evalDoc fs file stack load d) (evalDoc fs' file stack load' d) :=
  .bind (evalFields_eqA ha d 1 [] none) fun _ => .bind .fresh fun _ => .pure _

theorem evalArrFile_eqA (es : List Expr) :
    EqF (evalArrFile fs file stack load es) (evalArrFile fs' file stack load' es) :=
  .bind (evalElems_eqA ha es [] 1 .any) fun _ => .bind .fresh fun _ => .pure _

theorem evalTupFile_eqA (es : List Expr) :
    EqF (evalTupFile fs file stack load es) (evalTupFile fs' file stack load' es) :=
  .bind (evalItems_eqA ha es [] 1) fun _ => .bind .fresh fun _ => .pure _

end

section
variable [Unicode]

/-- Loaders that read bare texts only from files that are the same. -/
def LoadF (fs fs' : FS) (load load' : Loader) : Prop :=
  ∀ stack kind path, (kind = .str → fs'.read path = fs.read path) → EqF (load stack kind path) (load' stack kind path)

variable {fs fs' : FS}

theorem spItems_relaid {es : List Expr} {s s' : Str} (h : RelaidDoc s s') (hd : SpItems true es s) : SpItems true es s' := by
  have hF := rItems (rExpr (rTerm s.length))
  obtain ⟨s1, r', rfl, h1, h2⟩ := rItemsGap hF (Nat.le_refl _) hd (r := []) (.inl ⟨rfl, rfl, rfl⟩)
    (by rw [List.append_nil]; exact h)
  rcases h2 with ⟨-, rfl⟩ | ⟨c, x, x', h3, -⟩
  · rw [List.append_nil]; exact h1
  · cases h3

/-- Texts that differ only in layout spell the same. -/
theorem RelaidDoc.spelledAlike {s s' : Str} (h : RelaidDoc s s') : SpelledAlike s s' :=
  ⟨fun _ => spDoc_relaid_iff h, fun _ => ⟨spItems_relaid h, spItems_relaid h.symm⟩⟩

theorem FS.Respelled.isFile (h : fs.Respelled fs') (path : Str) : fs'.isFile path = fs.isFile path := by
  unfold FS.isFile
  rw [h.resolve]
  cases fs.resolve path with
  | none => rfl
  | some c =>
    simp only
    rcases h.files c with e | ⟨t, t', e, e', -⟩
    · rw [e]
    · rw [e, e']; rfl

theorem FS.Respelled.read (h : fs.Respelled fs') (path : Str) : fs'.read path = fs.read path ∨
    ∃ t t', fs.read path = .ok t ∧ fs'.read path = .ok t' ∧ SpelledAlike t t' := by
  unfold FS.read
  rw [h.resolve, h.openErr]
  cases fs.resolve path with
  | none => exact .inl rfl
  | some c =>
    simp only
    rcases h.files c with e | ⟨t, t', e, e', h3⟩
    · rw [e]; exact .inl rfl
    · rw [e, e']; exact .inr ⟨t, t', rfl, rfl, h3⟩

theorem evalInclude_eqF (h : fs.Respelled fs') {load load' : Loader} (hl : LoadF fs fs' load load') (file : Option Str) (stack : List Str)
    (kind : IncKind) (p : Str) (hk : kind = .str → KeptIn fs fs' file p) :
    EqF (evalInclude fs file stack load kind p) (evalInclude fs' file stack load' kind p) := by
  unfold KeptIn at hk
  unfold evalInclude
  extract_lets path
  change kind = .str → fs'.read path = fs.read path at hk
  generalize path = path at hk
  rw [h.resolve]
  cases hr : fs.resolve path with
  | none => exact .fail _ _
  | some full =>
    simp only
    rw [h.isFile, h.utf8]
    refine .ite (fun _ => .fail _ _) fun _ => .ite (fun _ => .fail _ _) fun _ => ?_
    intro st hst
    simp only
    cases hc : StrMap.get st.cache full with
    | some v => exact ⟨rfl, fun _ _ h => by cases h; exact hst⟩
    | none =>
      simp only
      obtain ⟨h1, h2⟩ := hl (full :: stack) kind path hk st hst
      rw [← h1]
      refine ⟨rfl, fun a st' ha => ?_⟩
      cases hm : load (full :: stack) kind path st with
      | error e => rw [hm] at ha; cases ha
      | ok x =>
        obtain ⟨b, st1⟩ := x
        rw [hm] at ha
        cases ha
        exact (h2 _ _ hm : st1.rt.Fine)

theorem inclF (h : fs.Respelled fs') {load load' : Loader} (hl : LoadF fs fs' load load') (file : Option Str) (stack : List Str) :
    InclF fs fs' file stack load load' (KeptIn fs fs' file) where
  tree kind p hk := evalInclude_eqF h hl file stack kind p (fun e => absurd e hk)
  text p hp := evalInclude_eqF h hl file stack .str p (fun _ => hp)

theorem loadN_eqF (h : fs.Respelled fs') (hb : fs.BareTextsKept fs') : ∀ n, LoadF fs fs' (loadN fs n) (loadN fs' n)
  | 0, _, _, _, _ => .err _
  | n + 1, stack, kind, path, hk => by
    have ih := loadN_eqF h hb n
    have hi := inclF h ih (some path) stack
    simp only [loadN]
    have key : ∀ t t', fs.read path = .ok t → SpelledAlike t t' → (kind = .str → t' = t) → fs'.read path = .ok t' →
        EqF (loadN fs (n + 1) stack kind path) (loadN fs' (n + 1) stack kind path) := by
      intro t t' hr ha hkt hr'
      obtain ⟨hd, he⟩ := hb path t hr
      simp only [loadN, hr, hr']
      cases kind with
      | str => rw [hkt rfl]; exact .pure _
      | obj =>
        refine .dite (exists_congr ha.1) (fun hx hx' => ?_) (fun _ _ => .err _)
        rw [choose_same ha.1 hx hx']
        exact .ownGlobals (.bind (evalDoc_eqF hi _ (hd _ hx.choose_spec)) fun _ => .pure _)
      | arr =>
        refine .dite (exists_congr ha.2) (fun hx hx' => ?_) (fun _ _ => .err _)
        rw [choose_same ha.2 hx hx']
        exact .ownGlobals (evalArrFile_eqF hi _ (he _ hx.choose_spec))
      | tup =>
        refine .dite (exists_congr ha.2) (fun hx hx' => ?_) (fun _ _ => .err _)
        rw [choose_same ha.2 hx hx']
        exact .ownGlobals (evalTupFile_eqF hi _ (he _ hx.choose_spec))
    change EqF (loadN fs (n + 1) stack kind path) (loadN fs' (n + 1) stack kind path)
    rcases h.read path with e | ⟨t, t', e, e', ha⟩
    · cases hr : fs.read path with
      | error m =>
        simp only [loadN, e, hr]
        exact .err _
      | ok t => exact key t t hr ⟨fun _ => Iff.rfl, fun _ => Iff.rfl⟩ (fun _ => rfl) (by rw [e, hr])
    · refine key t t' e ha (fun hs => ?_) e'
      have := hk hs
      rw [e, e'] at this
      injection this

/-- The bound on the nesting of includes makes no difference when it is large enough. -/
theorem evalInclude_enough (fs : FS) : ∀ (K K' : Nat) (file : Option Str) (stack : List Str), fs.filesExcl stack ≤ K → fs.filesExcl stack ≤ K' →
    ∀ kind p, EqF (evalInclude fs file stack (loadN fs K) kind p) (evalInclude fs file stack (loadN fs K') kind p) := by
  intro K
  induction K with
  | zero =>
    intro K' file stack hK hK' kind p
    unfold evalInclude
    extract_lets path
    generalize path = path
    cases hr : fs.resolve path with
    | none => exact .fail _ _
    | some full =>
      refine .ite (fun _ => .fail _ _) fun hn => .ite (fun _ => .fail _ _) fun hs => ?_
      exfalso
      have hf : fs.isFile path = true := by
        cases h : fs.isFile path with
        | true => rfl
        | false => exact absurd (.inl h) hn
      simp only [FS.isFile, hr] at hf
      obtain ⟨r, hr'⟩ := Option.isSome_iff_exists.1 hf
      have := FS.filesExcl_cons fs full stack hs r hr'
      omega
  | succ K ih =>
    intro K' file stack hK hK' kind p
    unfold evalInclude
    extract_lets path
    generalize path = path
    cases hr : fs.resolve path with
    | none => exact .fail _ _
    | some full =>
      refine .ite (fun _ => .fail _ _) fun hn => .ite (fun _ => .fail _ _) fun hs => ?_
      have hf : fs.isFile path = true := by
        cases h : fs.isFile path with
        | true => rfl
        | false => exact absurd (.inl h) hn
      simp only [FS.isFile, hr] at hf
      obtain ⟨r, hr'⟩ := Option.isSome_iff_exists.1 hf
      have hfe := FS.filesExcl_cons fs full stack hs r hr'
      cases K' with
      | zero => omega
      | succ K' =>
        have hi := fun kind p => ih K' (some path) (full :: stack) (by omega) (by omega) kind p
        have hl : EqF (loadN fs (K + 1) (full :: stack) kind path) (loadN fs (K' + 1) (full :: stack) kind path) := by
          simp only [loadN]
          cases fs.read path with
          | error m => exact .err _
          | ok t =>
            cases kind with
            | str => exact .pure _
            | obj => exact .dite Iff.rfl (fun _ _ => .ownGlobals (.bind (evalDoc_eqA hi _) fun _ => .pure _)) (fun _ _ => .err _)
            | arr => exact .dite Iff.rfl (fun _ _ => .ownGlobals (evalArrFile_eqA hi _)) (fun _ _ => .err _)
            | tup => exact .dite Iff.rfl (fun _ _ => .ownGlobals (evalTupFile_eqA hi _)) (fun _ _ => .err _)
        intro st hst
        simp only
        cases hc : StrMap.get st.cache full with
        | some v => exact ⟨rfl, fun _ _ h => by cases h; exact hst⟩
        | none =>
          simp only
          obtain ⟨h1, h2⟩ := hl st hst
          rw [← h1]
          refine ⟨rfl, fun a st' ha => ?_⟩
          cases hm : loadN fs (K + 1) (full :: stack) kind path st with
          | error e => rw [hm] at ha; cases ha
          | ok x =>
            obtain ⟨b, st1⟩ := x
            rw [hm] at ha
            cases ha
            exact (h2 _ _ hm : st1.rt.Fine)

theorem meaning_enough (fs : FS) (K : Nat) (hK : fs.nodes.length ≤ K) (file : Option Str) (stack : List Str) (d : List Field) (rt : Rt)
    (hf : rt.Fine) : meaning fs file stack d rt = evalDoc fs file stack (loadN fs K) d ⟨[], [], rt⟩ :=
  (evalDoc_eqA (evalInclude_enough fs _ K file stack ((fs.filesExcl_le _).trans (Nat.le_succ _)) ((fs.filesExcl_le _).trans hK)) d
    ⟨[], [], rt⟩ hf).1

/-- The trees of respelled files have the same meaning. -/
theorem evalDoc_respelled (h : fs.Respelled fs') (hb : fs.BareTextsKept fs') (n : Nat) (file : Option Str) (stack : List Str) {d : List Field}
    (hd : Field.barely (KeptIn fs fs' file) d) (st : ESt) (hst : st.rt.Fine) :
    evalDoc fs file stack (loadN fs n) d st = evalDoc fs' file stack (loadN fs' n) d st :=
  (evalDoc_eqF (inclF h (loadN_eqF h hb n) file stack) d hd st hst).1

theorem meaning_respelled (h : fs.Respelled fs') (hb : fs.BareTextsKept fs') (file : Option Str) (stack : List Str) {d : List Field}
    (hd : Field.barely (KeptIn fs fs' file) d) (rt : Rt) (hf : rt.Fine) : meaning fs file stack d rt = meaning fs' file stack d rt := by
  rw [meaning_enough fs _ (Nat.le_max_left fs.nodes.length fs'.nodes.length) _ _ _ _ hf,
    meaning_enough fs' _ (Nat.le_max_right fs.nodes.length fs'.nodes.length) _ _ _ _ hf]
  exact evalDoc_respelled h hb _ file stack hd _ hf

end

end Over
