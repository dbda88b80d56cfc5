import Verif.Lemmas.Continue
import Verif.Spec.Scope

/-! # Definitions inside nested objects -/

namespace Over

/-- The tree of `nest`. -/
def nestDoc : List (List Field × Str) → List Field → List Field
  | [], d => d
  | (b, y) :: ls, d => b ++ [.mk (.field y) (.mk (.obj (nestDoc ls d)) [])]

section
variable [Unicode]

theorem spDoc_newline {d : List Field} {s : Str} (h : SpDoc d s) : SpFields false d (s ++ ['\n']) := by
  have := spDoc_append (eof := false) (.nil (show Gap [] from .nil)) d s h
  simpa using this

theorem spDoc_nest : ∀ (ls : List (List Field × Str × Str)) (d : List Field) (u : Str),
    (∀ l ∈ ls, SpDoc l.1 l.2.1 ∧ FieldName l.2.2) → SpDoc d u →
    SpDoc (nestDoc (ls.map (fun l => (l.1, l.2.2))) d) (nest (ls.map (fun l => l.2)) u)
  | [], d, u, _, h => h
  | (b, t, y) :: ls, d, u, hl, h => by
    have ih := spDoc_nest ls d u (fun l hl' => hl l (by simp [hl'])) h
    obtain ⟨h1, h2⟩ := hl _ (List.mem_cons_self)
    have h3 : SpExpr (.mk (.obj (nestDoc (ls.map (fun l => (l.1, l.2.2))) d)) [])
        ('{' :: (nest (ls.map (fun l => l.2)) u ++ ['\n'] ++ ['}']) ++ []) :=
      .mk (.obj (spDoc_newline ih)) .nil
    have h4 := spDoc_snoc h1 (.field h2) h3
    simpa [nestDoc, nest] using h4

theorem layers_trees {layers : List (Str × Str)} (h : WellFormedLayers layers) :
    ∃ ls : List (List Field × Str × Str), ls.map (fun l => l.2) = layers ∧
      ∀ l ∈ ls, SpDoc l.1 l.2.1 ∧ FieldName l.2.2 := by
  induction layers with
  | nil => exact ⟨[], rfl, by simp⟩
  | cons l layers ih =>
    obtain ⟨ls, rfl, h2⟩ := ih (fun l' hl => h l' (by simp [hl]))
    obtain ⟨⟨d, hd⟩, hf⟩ := h l (by simp)
    exact ⟨(d, l) :: ls, rfl, by
      intro l' hl'
      rcases List.mem_cons.1 hl' with rfl | hl'
      · exact ⟨hd, hf⟩
      · exact h2 l' hl'⟩

end

section
variable {fs : FS} {file : Option Str} {stack : List Str} {load : Loader}

/-- Evaluating an object whose fields evaluate. -/
theorem evalObj_eq (fds : List Field) (pairs : List Pair) (k : Nat) (st : ESt) :
    evalExpr fs file stack load (.mk (.obj fds) []) pairs k st =
      if k + 1 > 64 then .error (.sem file .maxDepth) else
      match evalFields fs file stack load fds (k + 1) [] none st with
      | .error e => .error e
      | .ok ((ps, par), st') => .ok (.obj (.mk st'.rt.curId ps par), st'.withId st'.rt.next) := by
  have h1 : evalTerm fs file stack load (.obj fds) pairs k st =
      if k + 1 > 64 then .error (.sem file .maxDepth) else
      match evalFields fs file stack load fds (k + 1) [] none st with
      | .error e => .error e
      | .ok ((ps, par), st') => .ok (.obj (.mk st'.rt.curId ps par), st'.withId st'.rt.next) := by
    simp only [evalTerm, depthCheck]
    by_cases hk : k + 1 > 64
    · rw [if_pos hk, if_pos hk]; rfl
    · rw [if_neg hk, if_neg hk]
      rw [EM.bind_ok (a := ()) (st' := st) rfl]
      cases hf : evalFields fs file stack load fds (k + 1) [] none st with
      | error e => rw [EM.bind_err hf]
      | ok x => rw [EM.bind_ok hf]; rfl
  simp only [evalExpr]
  cases ht : evalTerm fs file stack load (.obj fds) pairs k st with
  | error e => rw [EM.bind_err ht, ← h1, ht]
  | ok x => rw [EM.bind_ok ht, ← h1, ht]; rfl

/-- Evaluating one more regular field. -/
theorem evalFields_one (f : Str) (ex : Expr) (k : Nat) (ps : List Pair) (par : Option Obj) (st : ESt) :
    evalFields fs file stack load [.mk (.field f) ex] k ps par st =
      if f ∈ ps.map Pair.field then .error (.sem file (.duplicateField f)) else
      match evalExpr fs file stack load ex ps k st with
      | .error e => .error e
      | .ok (v, st') => .ok ((ps ++ [.mk f v], par), st') := by
  simp only [evalFields, checkNew]
  by_cases hm : f ∈ ps.map Pair.field
  · rw [if_pos hm, if_pos hm]; rfl
  · rw [if_neg hm, if_neg hm, EM.bind_ok (a := ()) (st' := st) rfl]
    cases he : evalExpr fs file stack load ex ps k st with
    | error e => rw [EM.bind_err he]
    | ok x => rw [EM.bind_ok he]; rfl

/-- Pairs and parent of an object. -/
def Obj.body (o : Obj) : List Pair × Option Obj := (o.pairs, o.parent)

/-- `Innermost` for the fields and parent of an object that is not yet complete. -/
inductive InnerBody : List Str → List Pair × Option Obj → List Pair × Option Obj → Prop
  | here {b} : InnerBody [] b b
  | inside {y path ps par id ps' par' b} : InnerBody path (ps', par') b →
      InnerBody (y :: path) (ps ++ [.mk y (.obj (.mk id ps' par'))], par) b

theorem InnerBody.innermost {path : List Str} {a b : List Pair × Option Obj} (h : InnerBody path a b) :
    ∀ id, path ≠ [] → ∃ i, Innermost path (.mk id a.1 a.2) (.mk i b.1 b.2) := by
  induction h with
  | here => intro id h; exact absurd rfl h
  | @inside y path ps par i2 ps' par' b h ih =>
    intro id _
    cases path with
    | nil => cases h; exact ⟨i2, .inside rfl .here⟩
    | cons z path =>
      obtain ⟨i, hi⟩ := ih i2 (by simp)
      exact ⟨i, .inside rfl hi⟩

theorem InnerBody.of_innermost {path : List Str} {o p : Obj} (h : Innermost path o p) :
    InnerBody path o.body p.body := by
  induction h with
  | here => exact .here
  | @inside y path o q p ps h1 h2 ih =>
    obtain ⟨i, qs, qp⟩ := q
    have := InnerBody.inside (y := y) (ps := ps) (par := o.parent) (id := i) ih
    unfold Obj.body
    rw [h1]
    exact this

theorem InnerBody.unique {path : List Str} {a b c : List Pair × Option Obj} (h : InnerBody path a b)
    (h' : InnerBody path a c) : b = c := by
  induction h with
  | here => cases h'; rfl
  | @inside y path ps par id ps' par' b h ih =>
    generalize ha : (ps ++ [Pair.mk y (.obj (.mk id ps' par'))], par) = a' at h'
    cases h' with
    | inside h2 =>
      simp only [Prod.mk.injEq] at ha
      obtain ⟨ha, rfl⟩ := ha
      have := List.append_inj' ha rfl
      simp at this
      obtain ⟨-, -, rfl, rfl⟩ := this
      exact ih h2

/-- The property of the state and the object being defined survives the evaluation of definitions, and starting a new
object. -/
def KeepsProp (fs : FS) (file : Option Str) (stack : List Str) (load : Loader)
    (Q : ESt → List Pair × Option Obj → Prop) : Prop :=
  (∀ fds k ps par s b s', evalFields fs file stack load fds k ps par s = .ok (b, s') → Q s (ps, par) → Q s' b) ∧
    ∀ s b, Q s b → Q s ([], none)

theorem nestDoc_eval : ∀ (ls : List (List Field × Str)) (d : List Field) (k : Nat) (ps : List Pair) (par : Option Obj)
    (st : ESt) (res : List Pair × Option Obj) (st2 : ESt),
    evalFields fs file stack load (nestDoc ls d) k ps par st = .ok (res, st2) →
    ∃ b stI, InnerBody (ls.map (fun l => l.2)) res b ∧ stI.globals = st2.globals ∧ stI.cache = st2.cache ∧
      (∀ Q, KeepsProp fs file stack load Q → Q st (ps, par) → Q stI b) ∧
      (ls = [] → res = b ∧ st2 = stI) ∧
      ∀ more, (∀ e, evalFields fs file stack load more (k + ls.length) b.1 b.2 stI = .error e →
          evalFields fs file stack load (nestDoc ls (d ++ more)) k ps par st = .error e) ∧
        ∀ b' st', evalFields fs file stack load more (k + ls.length) b.1 b.2 stI = .ok (b', st') →
          ∃ res' st3, evalFields fs file stack load (nestDoc ls (d ++ more)) k ps par st = .ok (res', st3) ∧
            InnerBody (ls.map (fun l => l.2)) res' b' ∧ st3.globals = st'.globals ∧ st3.cache = st'.cache ∧
            (ls = [] → res' = b' ∧ st3 = st')
  | [], d, k, ps, par, st, res, st2, h => by
    refine ⟨res, st2, .here, rfl, rfl, fun Q hQ h1 => hQ.1 _ _ _ _ _ _ _ h h1, fun _ => ⟨rfl, rfl⟩, ?_⟩
    intro more
    simp only [nestDoc] at h ⊢
    have hap := evalFields_append (fs := fs) (file := file) (stack := stack) (load := load) more k d ps par st
    rw [h] at hap
    refine ⟨?_, ?_⟩
    · intro e he
      exact hap.trans he
    · intro b' st' he
      exact ⟨b', st', hap.trans he, .here, rfl, rfl, fun _ => ⟨rfl, rfl⟩⟩
  | (bf, y) :: ls, d, k, ps, par, st, res, st2, h => by
    simp only [nestDoc] at h ⊢
    rw [evalFields_append] at h
    cases hb : evalFields fs file stack load bf k ps par st with
    | error e => rw [hb] at h; cases h
    | ok x =>
      obtain ⟨⟨ps1, par1⟩, st1⟩ := x
      rw [hb] at h
      simp only [] at h
      rw [evalFields_one] at h
      by_cases hm : y ∈ ps1.map Pair.field
      · rw [if_pos hm] at h; cases h
      rw [if_neg hm, evalObj_eq] at h
      by_cases hk : k + 1 > 64
      · rw [if_pos hk] at h; cases h
      rw [if_neg hk] at h
      cases hi : evalFields fs file stack load (nestDoc ls d) (k + 1) [] none st1 with
      | error e => rw [hi] at h; cases h
      | ok z =>
        obtain ⟨⟨psN, parN⟩, stN⟩ := z
        rw [hi] at h
        simp only [Except.ok.injEq, Prod.mk.injEq] at h
        obtain ⟨hres, hst⟩ := h
        subst hres hst
        obtain ⟨b, stI, h1, h2, h3, h4, -, h5⟩ := nestDoc_eval ls d (k + 1) [] none st1 _ _ hi
        refine ⟨b, stI, .inside h1, h2, h3, fun Q hQ hs => h4 Q hQ (hQ.2 _ _ (hQ.1 _ _ _ _ _ _ _ hb hs)), (by simp), ?_⟩
        intro more
        obtain ⟨h6, h7⟩ := h5 more
        have hlen : k + ((bf, y) :: ls).length = k + 1 + ls.length := by simp; omega
        have hap := evalFields_append (fs := fs) (file := file) (stack := stack) (load := load)
          [.mk (.field y) (.mk (.obj (nestDoc ls (d ++ more))) [])] k bf ps par st
        rw [hb] at hap
        simp only [] at hap
        rw [evalFields_one, if_neg hm, evalObj_eq, if_neg hk] at hap
        rw [hlen]
        refine ⟨?_, ?_⟩
        · intro e he
          rw [h6 e he] at hap
          exact hap
        · intro b' st' he
          obtain ⟨res', st3, h8, h9, h10, h11, -⟩ := h7 b' st' he
          rw [h8] at hap
          exact ⟨_, _, hap, .inside h9, h10, h11, by simp⟩

end

section
variable [Unicode]

/-- Continuing a definition inside nested objects. -/
theorem continue_nested (fs : FS) (rt : Rt) (layers : List (Str × Str)) (u : Str) (o p : Obj) (s : PState)
    (hl : WellFormedLayers layers) (hu : WellFormed u) (h : fromStr fs (nest layers u) rt = .ok o s)
    (hp : Innermost (layers.map Prod.snd) o p) :
    ∃ (d : List Field) (st1 stI : ESt), SpDoc d (nest layers u) ∧
      evalFields fs none [] (theLoader fs) d 1 [] none ⟨[], [], rt⟩ = .ok (o.body, st1) ∧
      stI.globals = st1.globals ∧ stI.cache = st1.cache ∧
      (∀ Q, KeepsProp fs none [] (theLoader fs) Q → Q ⟨[], [], rt⟩ ([], none) → Q stI p.body) ∧
      ∀ (more : List Field) (t : Str), SpDoc more t →
        (∀ e, evalFields fs none [] (theLoader fs) more (1 + layers.length) p.pairs p.parent stI = .error e →
          SameOutcome (fromStr fs (nest layers (u ++ '\n' :: t)) rt) (.error e)) ∧
        ∀ ps' par' st', evalFields fs none [] (theLoader fs) more (1 + layers.length) p.pairs p.parent stI =
            .ok ((ps', par'), st') →
          ∃ o' s' i st3, fromStr fs (nest layers (u ++ '\n' :: t)) rt = .ok o' s' ∧
            Innermost (layers.map Prod.snd) o' (.mk i ps' par') ∧
            st3.globals = st'.globals ∧ st3.cache = st'.cache ∧
            ∃ d', SpDoc d' (nest layers (u ++ '\n' :: t)) ∧
            evalFields fs none [] (theLoader fs) d' 1 [] none ⟨[], [], rt⟩ = .ok (o'.body, st3) := by
  obtain ⟨ls, rfl, hls⟩ := layers_trees hl
  obtain ⟨du, hdu⟩ := hu
  have hd := spDoc_nest ls du u hls hdu
  obtain ⟨d2, st2, hd2, -, -, hev, -⟩ := continue_document fs rt _ o s h
  cases c49_one_document _ _ _ hd hd2
  obtain ⟨b, stI, h1, h2, h3, h4, -, h5⟩ := nestDoc_eval _ du 1 [] none _ _ _ hev
  have hpath : (ls.map (fun l => (l.1, l.2.2))).map (fun l => l.2) = (ls.map (fun l => l.2)).map Prod.snd := by
    simp
  rw [hpath] at h1
  have hb : b = p.body := h1.unique (InnerBody.of_innermost hp)
  subst hb
  refine ⟨_, st2, stI, hd, hev, h2, h3, h4, ?_⟩
  intro more t hmore
  have hdt : SpDoc (du ++ more) (u ++ '\n' :: t) := spDoc_append hmore du u hdu
  have hd3 := spDoc_nest ls _ _ hls hdt
  have hm := c44_from_str_meaning fs _ rt _ hd3
  obtain ⟨h6, h7⟩ := h5 more
  simp only [List.length_map] at h6 h7 ⊢
  refine ⟨?_, ?_⟩
  · intro e he
    have h8 := h6 e he
    simp only [meaning, evalDoc] at hm
    rw [EM.bind_err h8] at hm
    exact hm
  · intro ps' par' st' he
    obtain ⟨res', st3, h8, h9, h10, h11, h12⟩ := h7 (ps', par') st' he
    simp only [meaning, evalDoc] at hm
    rw [EM.bind_ok h8] at hm
    obtain ⟨s', h13, -⟩ := hm.of_ok
    rw [hpath] at h9
    cases ls with
    | nil =>
      obtain ⟨rfl, rfl⟩ := h12 rfl
      exact ⟨_, s', _, st3, h13, .here, h10, h11, _, hd3, h8⟩
    | cons l ls =>
      obtain ⟨i, hi⟩ := h9.innermost st3.rt.curId (by simp)
      exact ⟨_, s', i, st3, h13, hi, h10, h11, _, hd3, h8⟩

end

end Over
