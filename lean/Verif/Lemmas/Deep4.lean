import Verif.Lemmas.Deep3
import Verif.Lemmas.Project
import Verif.Lemmas.Kinds

/-! # Definitions in another order in the files of a project -/

set_option linter.unusedSectionVars false

namespace Over
namespace Deep

section
variable {S : IncKind → Nat} {fs fs' : FS} {file : Option Str} {stack : List Str} {load load' : Loader} {P : Str → Prop}

/-- The includes that read no bare text, and the ones of texts that satisfy `P`. -/
structure InclB (S : IncKind → Nat) (fs fs' : FS) (file : Option Str) (stack : List Str) (load load' : Loader) (P : Str → Prop) : Prop where
  tree : ∀ kind p, kind ≠ .str → Sim S (Like S) (evalInclude fs file stack load kind p) (evalInclude fs' file stack load' kind p)
  text : ∀ p, P p → Sim S (Like S) (evalInclude fs file stack load .str p) (evalInclude fs' file stack load' .str p)

/-- An include with one of the words. -/
theorem inclAs_word {k : Str} {kind : IncKind} (hk : k = kind.word) {e : Expr} {ps ps' : List Pair} {d : Nat} (hp : LikeP S ps ps')
    (hinc : ∀ p, (kind ≠ .str ∨ e = .mk (.str p) []) → Sim S (Like S) (evalInclude fs file stack load kind p) (evalInclude fs' file stack load' kind p))
    (he : Sim S (Like S) (evalExpr fs file stack load e ps (d + 1)) (evalExpr fs' file stack load' e ps' (d + 1)))
    (hs : kind = .str → ∃ p, e = .mk (.str p) []) :
    Sim S (Like S) (evalTerm fs file stack load (.inclAs (.mk (.name k) []) e) ps d)
      (evalTerm fs' file stack load' (.inclAs (.mk (.name k) []) e) ps' d) := by
  simp only [evalTerm]
  refine .bind (.depthCheck _ _) fun _ _ _ => ?_
  have hn : Sim S (Like S) (evalExpr fs file stack load (.mk (.name k) []) ps (d + 1)) (evalExpr fs' file stack load' (.mk (.name k) []) ps' (d + 1)) := by
    simp only [evalExpr, evalTerm, evalChain]
    exact .bind (evalName_sim hp) fun v v' hv => .bind (.pure (Q := LikeChain S) ⟨hv, .nil⟩) fun x x' hx => sumLeft_sim hx.2 hx.1
  intro st st' a st1 hr h
  obtain ⟨v, s1, s2, h1, h2, -⟩ := kindWord (fs := fs) (file := file) (stack := stack) (load := load) hk ps (d + 1) st hr.warm.fine
  obtain ⟨v', s1', h1', hv, hr1⟩ := hn _ _ _ _ hr h1
  obtain ⟨kk, s2', h2', rfl, hr2⟩ := evalKeyword_sim hv _ _ _ _ hr1 h2
  rw [EM.bind_ok h1, EM.bind_ok h2] at h
  rw [EM.bind_ok h1', EM.bind_ok h2']
  refine (?_ : Sim S (Like S) _ _) s2 s2' a st1 hr2 h
  by_cases hkd : kind = .str
  · obtain ⟨p, rfl⟩ := hs hkd
    exact hinc p (.inr rfl)
  · refine .bind he fun w w' hw => ?_
    cases hw.form <;> first | exact .fail _ _ | exact hinc _ (.inl hkd)

mutual
theorem evalTerm_bare (hi : InclB S fs fs' file stack load load' P) : ∀ (t : Term) (_ : t.barely P) {ps ps' : List Pair} {d : Nat}, LikeP S ps ps' →
    Sim S (Like S) (evalTerm fs file stack load t ps d) (evalTerm fs' file stack load' t ps' d)
  | .str _, _, _, _, _, _ => .pure rfl
  | .int _, _, _, _, _, _ => .pure rfl
  | .frac _, _, _, _, _, _ => .pure rfl
  | .name _, _, _, _, _, hp => evalName_sim hp
  | .dot x t, hb, ps, ps', d, hp => by
    simp only [evalTerm]
    have ih := fun {qs qs' : List Pair} => evalTerm_bare hi t hb (ps := qs) (ps' := qs') (d := d + 1)
    refine .bind (evalName_sim hp) (fun v v' hv => ?_)
    cases hv.form with
    | arr i i' ty vs vs' hvs => exact .bind (ih hp) (fun i i' hi => evalIndex_sim _ hvs hi)
    | tup i i' ty vs vs' hvs => exact .bind (ih hp) (fun i i' hi => evalIndex_sim _ hvs hi)
    | obj o o' ho => exact .ite Iff.rfl (.fail _ _) (.ite Iff.rfl (.fail _ _) (ih ho.pairs))
    | _ => exact .fail _ _
  | .neg t, hb, ps, ps', d, hp => by
    simp only [evalTerm]
    exact .bind (evalTerm_bare hi t hb hp) (fun v v' hv => applyUn_sim _ hv)
  | .pos t, hb, ps, ps', d, hp => by
    simp only [evalTerm]
    exact .bind (evalTerm_bare hi t hb hp) (fun v v' hv => applyUn_sim _ hv)
  | .arr es, hb, ps, ps', d, hp => by
    simp only [evalTerm]
    exact .bind (.depthCheck _ _) (fun _ _ _ => .bind (evalElems_bare hi es hb hp) (fun x x' hx => arr_new hx))
  | .tup es, hb, ps, ps', d, hp => by
    simp only [evalTerm]
    exact .bind (.depthCheck _ _) (fun _ _ _ => .bind (evalItems_bare hi es hb hp) (fun x x' hx => tup_new hx))
  | .obj fds, hb, ps, ps', d, hp => by
    simp only [evalTerm]
    exact .bind (.depthCheck _ _) (fun _ _ _ => .bind
      (evalFields_bare hi fds hb (ps := []) (ps' := []) (par := none) (par' := none) rfl rfl) (fun x x' hx => objV_new hx))
  | .incl e, hb, ps, ps', d, hp => by
    simp only [evalTerm]
    refine .bind (.depthCheck _ _) (fun _ _ _ => .bind (evalExpr_bare hi e hb hp) (fun v v' hv => .bind (evalKeyword_sim hv) (fun k k' hk => ?_)))
    subst hk
    cases k with
    | some k => exact .fail _ _
    | none => cases hv.form <;> first | exact .fail _ _ | exact hi.tree _ _ (by decide)
  | .inclAs (.mk (.name k) []) e, hb, ps, ps', d, hp => by
    have he := fun h => evalExpr_bare hi e h hp (d := d + 1)
    rcases hb with ⟨rfl, p, rfl, hP⟩ | ⟨hk, hb⟩
    · refine inclAs_word (kind := .str) rfl hp (fun q hq => ?_) (he ⟨trivial, trivial⟩) (fun _ => ⟨p, rfl⟩)
      rcases hq with h | h
      · exact absurd rfl h
      · cases h; exact hi.text p hP
    · simp only [List.mem_cons, List.not_mem_nil, or_false] at hk
      rcases hk with rfl | rfl | rfl
      · exact inclAs_word (kind := .obj) rfl hp (fun q _ => hi.tree _ q (by decide)) (he hb) (by simp)
      · exact inclAs_word (kind := .arr) rfl hp (fun q _ => hi.tree _ q (by decide)) (he hb) (by simp)
      · exact inclAs_word (kind := .tup) rfl hp (fun q _ => hi.tree _ q (by decide)) (he hb) (by simp)
  | .inclAs (.mk (.name _) (_ :: _)) _, hb, _, _, _, _ => hb.elim
  | .inclAs (.mk (.str s) r) e, hb, ps, ps', d, hp => by
    simp only [evalTerm]
    refine .bind (.depthCheck _ _) fun _ _ _ => ?_
    intro st st' a st1 hr h
    cases hm : evalExpr fs file stack load (.mk (.str s) r) ps (d + 1) st with
    | error k => rw [EM.bind_err hm] at h; cases h
    | ok x =>
      obtain ⟨v, s1⟩ := x
      rw [EM.bind_ok hm] at h
      obtain ⟨w, rfl⟩ := evalExpr_strFirst hm
      cases h
  | .inclAs (.mk (.int _) _) _, hb, _, _, _, _ => hb.elim
  | .inclAs (.mk (.frac _) _) _, hb, _, _, _, _ => hb.elim
  | .inclAs (.mk (.dot _ _) _) _, hb, _, _, _, _ => hb.elim
  | .inclAs (.mk (.neg _) _) _, hb, _, _, _, _ => hb.elim
  | .inclAs (.mk (.pos _) _) _, hb, _, _, _, _ => hb.elim
  | .inclAs (.mk (.arr _) _) _, hb, _, _, _, _ => hb.elim
  | .inclAs (.mk (.tup _) _) _, hb, _, _, _, _ => hb.elim
  | .inclAs (.mk (.obj _) _) _, hb, _, _, _, _ => hb.elim
  | .inclAs (.mk (.incl _) _) _, hb, _, _, _, _ => hb.elim
  | .inclAs (.mk (.inclAs _ _) _) _, hb, _, _, _, _ => hb.elim
termination_by structural t => t
theorem evalExpr_bare (hi : InclB S fs fs' file stack load load' P) : ∀ (e : Expr) (_ : e.barely P) {ps ps' : List Pair} {d : Nat}, LikeP S ps ps' →
    Sim S (Like S) (evalExpr fs file stack load e ps d) (evalExpr fs' file stack load' e ps' d)
  | .mk t r, hb, ps, ps', d, hp => by
    simp only [evalExpr]
    exact .bind (evalTerm_bare hi t hb.1 hp) (fun v v' hv => .bind (evalChain_bare hi r hb.2 hv hp) (fun x x' hx => sumLeft_sim hx.2 hx.1))
termination_by structural t => t
theorem evalChain_bare (hi : InclB S fs fs' file stack load load' P) : ∀ (r : List OpTerm) (_ : OpTerm.barelyL P r) {v v' : Value} {ps ps' : List Pair} {d : Nat},
    Like S v v' → LikeP S ps ps' →
    Sim S (LikeChain S) (evalChain fs file stack load r v ps d) (evalChain fs' file stack load' r v' ps' d)
  | [], _, _, _, _, _, _, hv, _ => .pure ⟨hv, .nil⟩
  | .mk op t :: r, hb, v, v', ps, ps', d, hv, hp => by
    simp only [evalChain]
    refine .bind (evalTerm_bare hi t hb.1 hp) (fun w w' hw => .ite Iff.rfl ?_ ?_)
    · exact .bind (applyBin_sim _ hv hw) (fun u u' hu => evalChain_bare hi r hb.2 hu hp)
    · exact .bind (evalChain_bare hi r hb.2 hw hp) (fun x x' hx => .pure ⟨hv, .cons hx.1 hx.2⟩)
termination_by structural t => t
theorem evalElems_bare (hi : InclB S fs fs' file stack load load' P) : ∀ (es : List Expr) (_ : Expr.barelyL P es) {ps ps' : List Pair} {d : Nat} {t : Ty}, LikeP S ps ps' →
    Sim S (fun x y => LikeL S x.1 y.1 ∧ x.2 = y.2) (evalElems fs file stack load es ps d t) (evalElems fs' file stack load' es ps' d t)
  | [], _, _, _, _, _, _ => .pure ⟨rfl, rfl⟩
  | e :: es, hb, ps, ps', d, t, hp => by
    simp only [evalElems]
    refine .bind (evalExpr_bare hi e hb.1 hp) (fun v v' hv => ?_)
    rw [← hv.getType]
    cases Ty.mostSpecific t v.getType with
    | none => exact .fail _ _
    | some u => exact .bind (evalElems_bare hi es hb.2 hp) (fun x x' hx => .pure ⟨.cons hv hx.1, hx.2⟩)
termination_by structural t => t
theorem evalItems_bare (hi : InclB S fs fs' file stack load load' P) : ∀ (es : List Expr) (_ : Expr.barelyL P es) {ps ps' : List Pair} {d : Nat}, LikeP S ps ps' →
    Sim S (LikeL S) (evalItems fs file stack load es ps d) (evalItems fs' file stack load' es ps' d)
  | [], _, _, _, _, _ => .pure rfl
  | e :: es, hb, ps, ps', d, hp => by
    simp only [evalItems]
    exact .bind (evalExpr_bare hi e hb.1 hp) (fun v v' hv => .bind (evalItems_bare hi es hb.2 hp) (fun x x' hx => .pure (.cons hv hx)))
termination_by structural t => t
theorem evalFields_bare (hi : InclB S fs fs' file stack load load' P) : ∀ (fds : List Field) (_ : Field.barely P fds) {ps ps' : List Pair} {par par' : Option Obj} {d : Nat},
    LikeP S ps ps' → LikeO S par par' →
    Sim S (LikeFields S) (evalFields fs file stack load fds d ps par) (evalFields fs' file stack load' fds d ps' par')
  | [], _, _, _, _, _, _, hp, hr => .pure ⟨hp, hr⟩
  | .mk _ e :: fds, hb, _, _, _, _, _, hp, hr => fields_cons hp hr (evalExpr_bare hi e hb.1 hp) (fun hp hr => evalFields_bare hi fds hb.2 hp hr)
termination_by structural t => t
end

theorem evalDoc_bare (hi : InclB S fs fs' file stack load load' P) (d : List Field) (h : Field.barely P d) :
    Sim S (LikeObj S) (evalDoc fs file stack load d) (evalDoc fs' file stack load' d) :=
  .bind (evalFields_bare hi d h (ps := []) (ps' := []) (par := none) (par' := none) rfl rfl) (fun _ _ hx => obj_new hx)

theorem evalArrFile_bare (hi : InclB S fs fs' file stack load load' P) (es : List Expr) (h : Expr.barelyL P es) :
    Sim S (Like S) (evalArrFile fs file stack load es) (evalArrFile fs' file stack load' es) :=
  .bind (evalElems_bare hi es h (ps := []) (ps' := []) rfl) (fun _ _ hx => arr_new hx)

theorem evalTupFile_bare (hi : InclB S fs fs' file stack load load' P) (es : List Expr) (h : Expr.barelyL P es) :
    Sim S (Like S) (evalTupFile fs file stack load es) (evalTupFile fs' file stack load' es) :=
  .bind (evalItems_bare hi es h (ps := []) (ps' := []) rfl) (fun _ _ hx => tup_new hx)

end

section
variable [Unicode] {S : IncKind → Nat} {fs fs' : FS}

theorem _root_.Over.FS.ReorderedTo.isFile (h : fs.ReorderedTo fs') (path : Str) : fs'.isFile path = fs.isFile path := by
  unfold FS.isFile
  rw [h.resolve]
  cases fs.resolve path with
  | none => rfl
  | some c =>
    simp only
    rcases h.files c with e | ⟨t, t', e, e', -⟩
    · rw [e]
    · rw [e, e']; rfl

/-- A document with definitions is no sequence of values, and an empty one remains empty. -/
theorem _root_.Over.TextReordered.items {t t' : Str} (h : TextReordered t t') (es : List Expr) : SpItems true es t ↔ SpItems true es t' := by
  obtain ⟨d, d', h1, h2, h3⟩ := h
  have len : d.length = d'.length := by
    have : ∀ (a b : List Field), ReFields a b → a.length = b.length := by
      intro a b h
      induction a generalizing b with
      | nil => cases h; rfl
      | cons f a ih =>
        cases h with
        | same => rfl
        | cons _ h => simp [ih _ h]
        | exchange => simp
    clear h1 h2
    induction h3 with
    | step h => exact this _ _ h
    | trans _ _ h1 h2 => exact h1.trans h2
  cases d with
  | cons f d =>
    cases d' with
    | nil => simp at len
    | cons f' d' => exact ⟨fun h => (fields_not_items h1 h).elim, fun h => (fields_not_items h2 h).elim⟩
  | nil =>
    cases d' with
    | cons => simp at len
    | nil =>
      have hx : SpItems true [] t := by cases h1 with | nil h => exact .nil h
      have hy : SpItems true [] t' := by cases h2 with | nil h => exact .nil h
      constructor
      · intro h; rw [spItems_unique h hx]; exact hy
      · intro h; rw [spItems_unique h hy]; exact hx

theorem _root_.Over.FS.ReorderedTo.read (h : fs.ReorderedTo fs') (path : Str) : fs'.read path = fs.read path ∨
    ∃ t t', fs.read path = .ok t ∧ fs'.read path = .ok t' ∧ TextReordered t t' := by
  unfold FS.read
  rw [h.resolve, h.openErr]
  cases fs.resolve path with
  | none => exact .inl rfl
  | some c =>
    simp only
    rcases h.files c with e | ⟨t, t', e, e', h3⟩
    · rw [e]; exact .inl rfl
    · rw [e, e']; exact .inr ⟨t, t', rfl, rfl, h3⟩

/-- Loaders that read bare texts only from files that are the same. -/
def LoadB (S : IncKind → Nat) (fs fs' : FS) (load load' : Loader) : Prop :=
  ∀ kind path, (kind = .str → fs'.read path = fs.read path) → ∀ stack, Sim S (Like S) (load stack kind path) (load' stack kind path)

theorem inclB (h : fs.ReorderedTo fs') {load load' : Loader} (hl : LoadB S fs fs' load load') (file : Option Str) (stack : List Str) :
    InclB S fs fs' file stack load load' (KeptIn fs fs' file) where
  tree kind p hk := evalInclude_sim h.resolve h.utf8 h.isFile kind p (hl kind _ fun e => absurd e hk)
  text p hp := evalInclude_sim h.resolve h.utf8 h.isFile .str p (hl .str _ fun _ => hp)

theorem loadN_bare (h : fs.ReorderedTo fs') (hb : fs.BareTextsKept fs') : ∀ n, LoadB S fs fs' (loadN fs n) (loadN fs' n)
  | 0, _, _, _, _ => .error _
  | n + 1, kind, path, hk, stack => by
    have hi := inclB (S := S) h (loadN_bare h hb n) (some path) stack
    cases hr : fs.read path with
    | error m => rw [loadN_io hr]; exact .error _
    | ok t =>
      by_cases hft : FileText kind t
      · obtain ⟨hd, he⟩ := hb path t hr
        have items : ∀ t', (∀ es, SpItems true es t ↔ SpItems true es t') → fs'.read path = .ok t' →
            kind = .arr ∨ kind = .tup → Sim S (Like S) (loadN fs (n + 1) stack kind path) (loadN fs' (n + 1) stack kind path) := by
          intro t' ha hr' hkind
          rcases hkind with rfl | rfl
          · have hx : ∃ es, SpItems true es t := hft
            have hx' : ∃ es, SpItems true es t' := (exists_congr ha).1 hx
            rw [loadN_arr hr _ _ hx, loadN_arr hr' _ _ hx']
            rw [choose_same ha hx hx']
            exact ownGlobals_sim (evalArrFile_bare hi _ (he _ hx.choose_spec))
          · have hx : ∃ es, SpItems true es t := hft
            have hx' : ∃ es, SpItems true es t' := (exists_congr ha).1 hx
            rw [loadN_tup hr _ _ hx, loadN_tup hr' _ _ hx']
            rw [choose_same ha hx hx']
            exact ownGlobals_sim (evalTupFile_bare hi _ (he _ hx.choose_spec))
        have doc : ∀ t' d d', SpDoc d t → SpDoc d' t' → ReorderedDeep d d' → fs'.read path = .ok t' → kind = .obj →
            Sim S (Like S) (loadN fs (n + 1) stack kind path) (loadN fs' (n + 1) stack kind path) := by
          rintro t' d d' h1 h2 h3 hr' rfl
          have hft' : FileText .obj t' := ⟨d', h2⟩
          have hx : ∃ d, SpDoc d t := ⟨d, h1⟩
          have hx' : ∃ d, SpDoc d t' := ⟨d', h2⟩
          rw [loadN_obj hr _ _ hx, loadN_obj hr' _ _ hx', c49_one_document _ _ _ hx.choose_spec h1, c49_one_document _ _ _ hx'.choose_spec h2]
          refine ownGlobals_sim (.bind (R := Like S) (Q := LikeObj S) ?_ fun o o' ho => .pure ho)
          exact ((evalDoc_bare hi d (hd d h1)).trans (evalDoc_re n h3)).mono fun a c ⟨b, h1, h2⟩ => Eq.trans h1 h2
        rcases h.read path with e | ⟨t1, t', e, e', hre⟩
        · rw [hr] at e
          cases kind with
          | str => rw [loadN_str hr, loadN_str e]; exact .pure rfl
          | arr => exact items t (fun _ => Iff.rfl) e (.inl rfl)
          | tup => exact items t (fun _ => Iff.rfl) e (.inr rfl)
          | obj =>
            obtain ⟨d, h1⟩ : ∃ d, SpDoc d t := hft
            exact doc t d d h1 h1 (.step (.same d)) e rfl
        · rw [hr] at e
          cases e
          have ha := hre.items
          obtain ⟨d, d', h1, h2, h3⟩ := hre
          cases kind with
          | str =>
            have := hk rfl
            rw [hr] at this
            rw [loadN_str hr, loadN_str this]; exact .pure rfl
          | arr => exact items t' ha e' (.inl rfl)
          | tup => exact items t' ha e' (.inr rfl)
          | obj => exact doc t' d d' h1 h2 h3 e' rfl
      · rw [loadN_malformed hr _ _ hft]; exact .error _

/-- The meanings of two documents of a project. -/
theorem meaning_project (h : fs.ReorderedTo fs') (hb : fs.BareTextsKept fs') {file : Option Str} {stack : List Str} {d d' : List Field}
    (hd : Field.barely (KeptIn fs fs' file) d) (hdd : ReorderedDeep d d') {rt rt' : Rt} (w : Warm S rt) (w' : Warm S rt') {o : Obj} {st : ESt}
    (hm : meaning fs file stack d rt = .ok (o, st)) : ∃ o' st', meaning fs' file stack d' rt' = .ok (o', st') ∧ LikeObj S o o' := by
  rw [meaning_enough fs _ (Nat.le_max_left fs.nodes.length fs'.nodes.length) _ _ _ _ w.fine] at hm
  rw [meaning_enough fs' _ (Nat.le_max_right fs.nodes.length fs'.nodes.length) _ _ _ _ w'.fine]
  have h1 := ((evalDoc_bare (S := S) (inclB h (loadN_bare h hb (max fs.nodes.length fs'.nodes.length)) file stack) d hd).trans
    (evalDoc_re (max fs.nodes.length fs'.nodes.length) hdd))
  obtain ⟨o', st', h2, ⟨b, h3, h4⟩, -⟩ := h1 ⟨[], [], rt⟩ ⟨[], [], rt'⟩ o st ⟨fun _ => rfl, fun _ => rfl, w, w'⟩ hm
  exact ⟨o', st', h2, Eq.trans h3 h4⟩

end

end Deep
end Over
