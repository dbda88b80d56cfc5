import Verif.Lemmas.InlineSame
import Verif.Lemmas.Sim4

/-! # Replacing names by their definitions: whole documents -/

namespace Over

section
variable {S : IncKind → Nat} {D : Option Str → Prop} {U : Str → Prop} {fs : FS} {file : Option Str} {stack : List Str} {load : Loader}

/-! ## Documents -/

theorem evalDoc_inl (hD : D file) (hl : LoadSim S load) {d d' : List Field} (h : InlDoc U [] [] d d') :
    SimBy S D U (fun _ => True) (LikeObj S) (evalDoc fs file stack load d) (evalDoc fs file stack load d') := by
  unfold evalDoc
  refine .bind (fun _ _ _ _ => trivial) ((evalDocFields_inl hD hl h (ps := []) (ps' := []) (par := none) (par' := none) rfl rfl (Nat.le_refl 1)).weaken
    fun _ _ => KnownDefs.none) (fun x x' hx => ?_)
  obtain ⟨q, r⟩ := x
  obtain ⟨q', r'⟩ := x'
  obtain ⟨h1, h2⟩ : LikeP S q q' ∧ LikeO S r r' := hx
  exact .of_local (.bind .fresh fun i j hij => .pure (by
    show Obj.mapIds _ _ = Obj.mapIds _ _
    simp only [Obj.mapIds, hij.1, hij.2, show Pair.mapIdsL _ q = _ from h1, show Obj.mapIdsP _ r = _ from h2]))

theorem evalDoc_same (hl : LoadSim S load) (d : List Field) :
    SimAll S D (LikeObj S) (evalDoc fs file stack load d) (evalDoc fs file stack load d) := by
  unfold evalDoc
  refine .bind lasting_true (evalFields_same hl d (ps := []) (ps' := []) (par := none) (par' := none) rfl rfl) (fun x x' hx => ?_)
  obtain ⟨q, r⟩ := x
  obtain ⟨q', r'⟩ := x'
  obtain ⟨h1, h2⟩ : LikeP S q q' ∧ LikeO S r r' := hx
  exact .of_local (.bind .fresh fun i j hij => .pure (by
    show Obj.mapIds _ _ = Obj.mapIds _ _
    simp only [Obj.mapIds, hij.1, hij.2, show Pair.mapIdsL _ q = _ from h1, show Obj.mapIdsP _ r = _ from h2]))

theorem ownGlobals_sim {m m' : EM Value} (h : SimAll S D (Like S) m m') :
    SimBy S D U (fun _ => True) (Like S) (EM.ownGlobals m) (EM.ownGlobals m') := by
  intro st st' hr _
  unfold EM.ownGlobals
  have hr' : RelSt S (fun _ => False) { st with globals := [] } { st' with globals := [] } :=
    ⟨fun _ _ => LikeGet.refl _, hr.cache, hr.warm, hr.warm'⟩
  rcases h _ _ hr' trivial with ⟨f, hf, h1⟩ | ⟨e, h1, h2⟩ | ⟨a, a', st1, st1', h1, h2, q, h3, h4⟩
  · rw [h1]; exact .inl ⟨f, hf, rfl⟩
  · rw [h1, h2]; exact .inr (.inl ⟨e, rfl, rfl⟩)
  · rw [h1, h2]
    exact .inr (.inr ⟨a, a', _, _, rfl, rfl, q, ⟨hr.globals, h3.cache, h3.warm, h3.warm'⟩, fun _ _ h => h, h4.cache⟩)

end

section
variable [Unicode] {S : IncKind → Nat} {fs : FS}

theorem loadN_sim : ∀ n : Nat, LoadSim S (loadN fs n)
  | 0 => ⟨fun U stack kind path st st' hr _ => .inr (.inl ⟨_, rfl, rfl⟩), fun _ _ _ _ _ _ h => by cases h⟩
  | n + 1 => by
    have ih := loadN_sim n
    refine ⟨fun U stack kind path => ?_, fun stack kind path st v st1 h => ?_⟩
    · cases hr : fs.read path with
      | error msg => rw [loadN_io hr]; exact fun st st' _ _ => .inr (.inl ⟨_, rfl, rfl⟩)
      | ok text =>
        by_cases hd : FileText kind text
        · cases kind with
          | str => rw [loadN_str hr]; exact .of_local (.pure rfl)
          | obj =>
            rw [loadN_obj hr _ _ hd]
            refine ownGlobals_sim (.bind (fun _ _ _ _ => trivial) (evalDoc_same ih _) fun o o' ho => .of_local (.pure ?_))
            show Value.mapIds _ _ = Value.mapIds _ _
            simp only [Value.mapIds, show o.mapIds _ = _ from ho]
          | arr =>
            rw [loadN_arr hr _ _ hd]
            refine ownGlobals_sim ?_
            unfold evalArrFile
            refine .bind (fun _ _ _ _ => trivial) (evalElems_same ih _ (ps := []) (ps' := []) rfl) (fun x x' hx => ?_)
            obtain ⟨vs, t⟩ := x
            obtain ⟨vs', t'⟩ := x'
            obtain ⟨h1, rfl⟩ : LikeL S vs vs' ∧ t = t' := hx
            exact .of_local (.bind .fresh fun i j hij => .pure (by
              show Value.mapIds _ _ = Value.mapIds _ _
              simp only [Value.mapIds, hij.1, hij.2, show Value.mapIdsL _ vs = _ from h1]))
          | tup =>
            rw [loadN_tup hr _ _ hd]
            refine ownGlobals_sim ?_
            unfold evalTupFile
            refine .bind (fun _ _ _ _ => trivial) (evalItems_same ih _ (ps := []) (ps' := []) rfl) (fun vs vs' hx => ?_)
            exact .of_local (.bind .fresh fun i j hij => .pure (by
              show Value.mapIds _ _ = Value.mapIds _ _
              simp only [Value.mapIds, hij.1, hij.2, show Value.mapIdsL _ vs = _ from hx, hx.getType]))
        · rw [loadN_malformed hr _ _ hd]; exact fun st st' _ _ => .inr (.inl ⟨_, rfl, rfl⟩)
    · exact ((loadN_oblivious fs (n + 1) stack kind path st []).1 _ _ h).1

/-- The meanings of two documents. -/
theorem meaning_inl {U : Str → Prop} {file : Option Str} {stack : List Str} {d d' : List Field} (h : InlDoc U [] [] d d') {rt rt' : Rt}
    (w : Warm S rt) (w' : Warm S rt') :
    TooDeep (· = file) (meaning fs file stack d' rt') ∨ (∃ e, meaning fs file stack d rt = .error e ∧ meaning fs file stack d' rt' = .error e) ∨
    ∃ o o' st st', meaning fs file stack d rt = .ok (o, st) ∧ meaning fs file stack d' rt' = .ok (o', st') ∧ LikeObj S o o' := by
  rcases evalDoc_inl (D := (· = file)) (fs := fs) (file := file) (stack := stack) rfl (loadN_sim (fs.nodes.length + 1)) h ⟨[], [], rt⟩ ⟨[], [], rt'⟩
    ⟨fun _ _ => LikeGet.refl _, fun _ => LikeGet.refl _, w, w'⟩ trivial with h1 | h1 | ⟨o, o', st, st', h1, h2, h3, -, -⟩
  · exact .inl h1
  · exact .inr (.inl h1)
  · exact .inr (.inr ⟨o, o', st, st', h1, h2, h3⟩)

end

end Over
