import Verif.Lemmas.Identity
import Verif.Props.Scope
import Verif.Props.Include

/-!
# C47: identity and sharing in parsed objects

`Obj.containers`, `Value.cid`, `Obj.ids`, `noRefs` and `BracketLit` are in `Spec/Identity.lean`, `ReadsAt` and `Denotes` in
`Spec/Place.lean`, `Rt.Fine` in `Spec/Include.lean`.
-/

namespace Over

section
variable [Unicode]

/-- C47: in an object read by `from_str`, two containers (at whatever depth, in fields, elements or parents) with the same
id are the same container. -/
theorem c47_same_id_same_container (fs : FS) (text : Str) (rt : Rt) (hf : rt.Fine) (o : Obj) (s : PState)
    (h : fromStr fs text rt = .ok o s) (c : Value) (hc : c ∈ o.containers) (c' : Value) (hc' : c' ∈ o.containers)
    (hi : c.cid = c'.cid) : c = c' := by
  obtain ⟨d, st, -, h2, -⟩ := c45_from_str_accepts fs text rt o s h
  obtain ⟨r, -, h3⟩ := reg_meaning hf h2
  have e1 := h3 c (by simpa [Value.containers] using hc)
  have e2 := h3 c' (by simpa [Value.containers] using hc')
  rw [hi, e2] at e1
  exact (Option.some.inj e1).symm

/-- C47: the same for `from_file`. -/
theorem c47_same_id_same_container_file (fs : FS) (path full : Str) (rt : Rt) (hf : rt.Fine) (o : Obj) (s : PState)
    (hp : fs.resolve path = some full) (h : fromFile fs path rt = .ok o s) (c : Value)
    (hc : c ∈ o.containers) (c' : Value) (hc' : c' ∈ o.containers) (hi : c.cid = c'.cid) : c = c' := by
  obtain ⟨_, d, st, -, -, h2, -⟩ := c45_from_file_accepts fs path full rt o s hp h
  obtain ⟨r, -, h3⟩ := reg_meaning hf h2
  have e1 := h3 c (by simpa [Value.containers] using hc)
  have e2 := h3 c' (by simpa [Value.containers] using hc')
  rw [hi, e2] at e1
  exact (Option.some.inj e1).symm

/-- C47: every container of an object read by `from_str` is newer than everything that existed before the call, and its id
will not be given out again, or it is the (empty) object of one of the keywords `Obj Str Arr Tup`. -/
theorem c47_containers_are_new (fs : FS) (text : Str) (rt : Rt) (hf : rt.Fine) (o : Obj) (s : PState)
    (h : fromStr fs text rt = .ok o s) (c : Value) (hc : c ∈ o.containers) :
    c.cid < s.rt.curId ∧
      (rt.curId ≤ c.cid ∨ ∃ k, s.rt.keyword k = some c.cid ∧ c = .obj (.mk c.cid [] none)) := by
  obtain ⟨d, st, -, h2, h3⟩ := c45_from_str_accepts fs text rt o s h
  obtain ⟨r, h4, h5⟩ := reg_meaning hf h2
  have e1 := h5 c (by simpa [Value.containers] using hc)
  rw [h3]
  exact ⟨(h4.cid _ _ e1).2, h4.old _ _ e1⟩

/-- C47: the same for `from_file`. -/
theorem c47_containers_are_new_file (fs : FS) (path full : Str) (rt : Rt) (hf : rt.Fine) (o : Obj) (s : PState)
    (hp : fs.resolve path = some full) (h : fromFile fs path rt = .ok o s) (c : Value)
    (hc : c ∈ o.containers) :
    c.cid < s.rt.curId ∧
      (rt.curId ≤ c.cid ∨ ∃ k, s.rt.keyword k = some c.cid ∧ c = .obj (.mk c.cid [] none)) := by
  obtain ⟨_, d, st, -, -, h2, h3⟩ := c45_from_file_accepts fs path full rt o s hp h
  obtain ⟨r, h4, h5⟩ := reg_meaning hf h2
  have e1 := h5 c (by simpa [Value.containers] using hc)
  rw [h3]
  exact ⟨(h4.cid _ _ e1).2, h4.old _ _ e1⟩

/-- C47: a container in an object read by `from_str` is newer than everything in it (so nothing contains itself). -/
theorem c47_contents_are_older (fs : FS) (text : Str) (rt : Rt) (hf : rt.Fine) (o : Obj) (s : PState)
    (h : fromStr fs text rt = .ok o s) (c : Value) (hc : c ∈ o.containers) (d : Value) (hd : d ∈ c.containers.tail) :
    d.cid < c.cid := by
  obtain ⟨_, st, -, h2, -⟩ := c45_from_str_accepts fs text rt o s h
  obtain ⟨r, h4, h5⟩ := reg_meaning hf h2
  exact h4.older _ _ (h5 c (by simpa [Value.containers] using hc)) d hd

/-- C47: the same for `from_file`. -/
theorem c47_contents_are_older_file (fs : FS) (path full : Str) (rt : Rt) (hf : rt.Fine) (o : Obj) (s : PState)
    (hp : fs.resolve path = some full) (h : fromFile fs path rt = .ok o s) (c : Value)
    (hc : c ∈ o.containers) (d : Value) (hd : d ∈ c.containers.tail) : d.cid < c.cid := by
  obtain ⟨_, _, st, -, -, h2, -⟩ := c45_from_file_accepts fs path full rt o s hp h
  obtain ⟨r, h4, h5⟩ := reg_meaning hf h2
  exact h4.older _ _ (h5 c (by simpa [Value.containers] using hc)) d hd

/-- C47: without references in the text nothing is shared: all containers of the object have different ids, all of them
new. -/
theorem c47_literals_are_distinct (fs : FS) (text : Str) (rt : Rt) (d : List Field) (hd : SpDoc d text)
    (hn : Field.noRefsL d) (o : Obj) (s : PState) (h : fromStr fs text rt = .ok o s) :
    o.ids.Nodup ∧ ∀ i ∈ o.ids, rt.curId ≤ i := by
  obtain ⟨d', st, hd', h2, -⟩ := c45_from_str_accepts fs text rt o s h
  cases c49_one_document _ _ _ hd hd'
  obtain ⟨_, -, h3⟩ := between_term (fs := fs) (file := none) (stack := []) (load := theLoader fs) (.obj d) [] 0
    ⟨[], [], rt⟩ hn (.obj o) st (by
      simp only [meaning, evalDoc] at h2
      simp only [evalTerm, depthCheck]
      rw [if_neg (by omega), EM.bind_ok (a := ()) (st' := ⟨[], [], rt⟩) rfl]
      cases hf : evalFields fs none [] (theLoader fs) d 1 [] none ⟨[], [], rt⟩ with
      | error e => rw [EM.bind_err hf] at h2; cases h2
      | ok x => rw [EM.bind_ok hf] at h2; rw [EM.bind_ok hf]; cases h2; rfl)
  have e : o.ids = (Value.obj o).ids := by simp [Obj.ids, Value.ids, Value.containers]
  rw [e]
  exact ⟨h3.1, fun i hi => (h3.2 i hi).1⟩

/-- C47: at every place, a container written out in brackets is none of the containers reached from the fields and the
parent defined so far in its object, whatever these refer to, and none of the values of the globals. -/
theorem c47_literal_is_new (fs : FS) (rt : Rt) (hf : rt.Fine) (A : List (Str × Str)) (u : Str) (p : Obj)
    (h : ReadsAt fs rt A u p) (e : Str) (he : BracketLit e) (v : Value) (hv : Denotes fs rt A u p e v) :
    v.cid ∉ (Pair.containersL p.pairs ++ Obj.containersP p.parent).map Value.cid ∧
      ∀ g w, GlobalName g → Denotes fs rt A u p g w → v.cid ∉ w.ids := by
  obtain ⟨st, -, -, hc, -, hQ⟩ := at_place_cache h
  obtain ⟨r, h1, h2, h3⟩ := hQ (PlaceReg rt.curId) (placeReg_keeps _ fs)
    ⟨fun _ => none, regInv_start hf, by simp, by simp⟩
  have hex : ∃ t : Term, SpTerm t e ∧ ((∃ es, t = .arr es) ∨ (∃ es, t = .tup es) ∨ ∃ fds, t = .obj fds) := by
    cases he with
    | arr h => exact ⟨_, .arr h, .inl ⟨_, rfl⟩⟩
    | tup h => exact ⟨_, .tup h, .inr (.inl ⟨_, rfl⟩)⟩
    | obj h => exact ⟨_, .obj h, .inr (.inr ⟨_, rfl⟩)⟩
  obtain ⟨t, ht, hform⟩ := hex
  have hsp : SpExpr (.mk t []) e := by
    have := SpExpr.mk ht .nil
    simpa using this
  obtain ⟨st', hev⟩ := hv.eval hc hsp
  rw [evalExpr_term] at hev
  have hnew : st.rt.curId ≤ v.cid := by
    have hi : fineInv.Includes fs none [] (theLoader fs) :=
      EvalInv.includes_of_load fineFiles (EvalInv.loadN_good fineFiles fs _)
    have hfine : fineInv.I (st, ()) := h1.1.fine
    have hdep : ∀ {β : Type} {m : EM β} {b : β} {k : Nat},
        (depthCheck none k >>= fun _ => m) st = .ok (b, st') → m st = .ok (b, st') := by
      intro β m b k hk
      unfold depthCheck at hk
      by_cases hd : k > 64
      · rw [if_pos hd] at hk; cases hk
      · rw [if_neg hd] at hk; exact hk
    rcases hform with ⟨es, rfl⟩ | ⟨es, rfl⟩ | ⟨fds, rfl⟩
    · simp only [evalTerm] at hev
      have hev := hdep hev
      cases hx : evalElems fs none [] (theLoader fs) es p.pairs (1 + A.length + 1) .any st with
      | error er => rw [EM.bind_err hx] at hev; cases hev
      | ok x =>
        obtain ⟨⟨vs, t⟩, st1⟩ := x
        rw [EM.bind_ok hx] at hev
        cases hev
        obtain ⟨_, -, h5, -⟩ := fineInv.evalElems_good hi es p.pairs _ .any (st, ()) hfine (fun _ _ => trivial)
          (fun _ _ => trivial) _ _ hx
        exact h5.2
    · simp only [evalTerm] at hev
      have hev := hdep hev
      cases hx : evalItems fs none [] (theLoader fs) es p.pairs (1 + A.length + 1) st with
      | error er => rw [EM.bind_err hx] at hev; cases hev
      | ok x =>
        obtain ⟨vs, st1⟩ := x
        rw [EM.bind_ok hx] at hev
        cases hev
        obtain ⟨_, -, h5, -⟩ := fineInv.evalItems_good hi es p.pairs _ (st, ()) hfine (fun _ _ => trivial)
          (fun _ _ => trivial) _ _ hx
        exact h5.2
    · simp only [evalTerm] at hev
      have hev := hdep hev
      cases hx : evalFields fs none [] (theLoader fs) fds (1 + A.length + 1) [] none st with
      | error er => rw [EM.bind_err hx] at hev; cases hev
      | ok x =>
        obtain ⟨⟨ps, par⟩, st1⟩ := x
        rw [EM.bind_ok hx] at hev
        cases hev
        obtain ⟨_, -, h5, -⟩ := fineInv.evalFields_good hi fds _ [] none (st, ()) hfine (fun _ _ => trivial)
          (fun _ _ => trivial) (fun _ _ => trivial) _ _ hx
        exact h5.2
  have hold : ∀ w, Registered r w → v.cid ∉ w.ids := by
    intro w hw hm
    obtain ⟨c, hc, e⟩ := List.mem_map.1 hm
    have := (h1.1.cid _ _ (hw c hc)).2
    have : c.cid < st.rt.curId := this
    omega
  refine ⟨?_, ?_⟩
  · intro hm
    obtain ⟨c, hc, e⟩ := List.mem_map.1 hm
    rcases List.mem_append.1 hc with hc | hc
    · obtain ⟨q, hq, hc⟩ := pairContainersL_mem.1 hc
      exact hold _ (h2 q hq) (List.mem_map.2 ⟨c, hc, e⟩)
    · cases hp : p.parent with
      | none => rw [hp] at hc; simp [Obj.containersP] at hc
      | some q =>
        rw [hp] at hc
        exact hold _ (h3 q (by simp [Obj.body, hp]))
          (List.mem_map.2 ⟨c, by simpa [Obj.containersP, Value.containers] using hc, e⟩)
  · intro g w hg hw
    obtain ⟨st2, hev2⟩ := hw.eval hc (spVar hg.varName)
    refine hold w ?_
    rw [evalGlobal_expr hg] at hev2
    cases hgv : StrMap.get st.globals g with
    | none => rw [hgv] at hev2; cases hev2
    | some w' => rw [hgv] at hev2; cases hev2; exact h1.2.1 g _ hgv

/-- C47: a variable is the very container it names, not a copy; so is a global, wherever it is used. (Includes: C37.) -/
theorem c47_references_share (fs : FS) (rt : Rt) (A : List (Str × Str)) (u : Str) (p : Obj) (h : ReadsAt fs rt A u p)
    (y : Str) (hy : FieldName y) (hn : NotNamed p.pairs y) :
    (∀ x v, FieldName x → FirstNamed p.pairs x v → ∃ p', ReadsAt fs rt A (u ++ c!"\n" ++ y ++ c!":" ++ x) p' ∧
      p'.pairs = p.pairs ++ [.mk y v]) ∧
    ∀ g e v, GlobalName g → (∃ ex, SpExpr ex e) → Denotes fs rt A u p e v →
      FailsWith fs rt (nest A (u ++ c!"\n" ++ y ++ c!":" ++ g)) (.globalNotFound g) →
      ∃ p', ReadsAt fs rt A (u ++ c!"\n" ++ g ++ c!":" ++ e ++ c!"\n" ++ y ++ c!":" ++ g) p' ∧
        p'.pairs = p.pairs ++ [.mk y v] := by
  refine ⟨?_, ?_⟩
  · intro x v hx hv
    obtain ⟨p', h1, h2, -⟩ := (c32_variable fs rt A u p h x y hx hy hn).1 v hv
    exact ⟨p', h1, h2⟩
  · rintro g e v hg ⟨ex, he⟩ hv hnew
    obtain ⟨p1, h1, h2, h3, y2, p2, hy2, hn2, h4, h5⟩ := c33_definition fs rt A u p h g y hg hy hn e ex he v hv hnew
    obtain ⟨st, -, hc⟩ := at_place h1
    obtain ⟨st', hev⟩ := (show Denotes fs rt A _ p1 g v from ⟨y2, p2, hy2, hn2, h4, h5⟩).eval hc (spVar hg.varName)
    obtain ⟨-, -, h6⟩ := field_at hc hy (by rw [h2]; exact hn) (spVar hg.varName)
    obtain ⟨-, p', h7, h8, -⟩ := h6 v st' hev
    exact ⟨p', h7, by rw [h8, h2]⟩

end

section
attribute [local instance] sampleUnicode

/-- `b` and `d.e` are the instance `a`; `c` is another one; the object itself has id 3. -/
def sampleShared : Obj :=
  let a : Value := .arr 0 .int [.int 1]
  .mk 3 [.mk c!"a" a, .mk c!"b" a, .mk c!"c" (.arr 1 .int [.int 1]), .mk c!"d" (.obj (.mk 2 [.mk c!"e" a] none))] none

theorem sampleShared_read : ∃ s, fromStr noFiles c!"@g: [1] a: @g b: a c: [1] d: {e: @g}" startRt = .ok sampleShared s :=
  Res.gives_ok (by decide +kernel)

example : sampleShared.ids = [3, 0, 0, 1, 2, 0] := by decide +kernel

example : ∀ c ∈ sampleShared.containers, ∀ c' ∈ sampleShared.containers, c.cid = c'.cid → c = c' := by
  obtain ⟨s, h⟩ := sampleShared_read
  intro c hc c' hc' e
  exact c47_same_id_same_container _ _ _ startRt_fine _ s h c hc c' hc' e

example : ∀ c ∈ sampleShared.containers, ∀ d ∈ c.containers.tail, d.cid < c.cid := by
  obtain ⟨s, h⟩ := sampleShared_read
  intro c hc d hd
  exact c47_contents_are_older _ _ _ startRt_fine _ s h c hc d hd

/-- A process in which five ids are in use, `2` of them for the keyword `Obj`. -/
def usedRt : Rt := ⟨⟨5, some 2, none, none, none⟩, 0, fun _ s => s, fun _ s => Shared.MovesOn.refl s⟩

theorem usedRt_fine : usedRt.Fine := by
  intro k i h
  cases k <;> cases h
  refine ⟨by decide, ?_⟩
  intro k' h'
  cases k' <;> cases h'
  rfl

def sampleUsed : Obj :=
  .mk 6 [.mk c!"a" (.obj (.mk 2 [] none)), .mk c!"b" (.arr 5 .int [.int 1])] none

/-- An old container (the keyword object) and two new ones. -/
example : ∀ c ∈ sampleUsed.containers, 5 ≤ c.cid ∨ c = .obj (.mk c.cid [] none) := by
  obtain ⟨s, h⟩ : ∃ s, fromStr noFiles c!"a: Obj b: [1]" usedRt = .ok sampleUsed s := Res.gives_ok (by decide +kernel)
  intro c hc
  rcases (c47_containers_are_new _ _ _ usedRt_fine _ s h c hc).2 with h1 | ⟨k, -, h1⟩
  · exact .inl h1
  · exact .inr h1

def samplePlain : Obj :=
  .mk 8 [.mk c!"a" (.tup 7 [.obj, .arr .any] [.obj (.mk 5 [] none), .arr 6 .any []])] none

/-- A text without references. -/
example : samplePlain.ids.Nodup ∧ ∀ i ∈ samplePlain.ids, 5 ≤ i := by
  obtain ⟨s, h⟩ : ∃ s, fromStr noFiles c!"a:({} [])" usedRt = .ok samplePlain s := Res.gives_ok (by decide +kernel)
  let d : List Field := [.mk (.field c!"a") (.mk (.tup [.mk (.obj []) [], .mk (.arr []) []]) [])]
  have hd : SpDoc d c!"a:({} [])" := by
    refine spOne (n := c!"a") (e := c!"({} [])") (.field (sampleFieldName 'a' (by decide))) ?_
    refine .mk (s := c!"({} [])") (u := []) (.tup (s := c!"{} []") ?_) .nil
    refine .cons (g := []) (s := c!"{}") (r := c!" []") .nil ?_ ?_ (.inr ⟨' ', c!"[]", rfl, .inl (by decide)⟩)
    · exact .mk (s := c!"{}") (u := []) (.obj (s := []) (.nil .nil)) .nil
    · refine .cons (g := c!" ") (s := c!"[]") (r := []) (.ws (by decide) .nil) ?_ (.nil .nil) (.inl rfl)
      exact .mk (s := c!"[]") (u := []) (.arr (s := []) (.nil .nil)) .nil
  exact c47_literals_are_distinct _ _ _ d hd (by simp [d, Field.noRefsL, Expr.noRefs, Term.noRefs, Expr.noRefsL,
    OpTerm.noRefsL]) _ s h

/-- `[]` after `b: 2` inside `a` is new. -/
example : ∃ v, Denotes noFiles startRt [(c!"x: 1", c!"a")] c!"b: 2" (.mk 0 [.mk c!"b" (.int 2)] none) c!"[]" v ∧
    ∀ g w, GlobalName g → Denotes noFiles startRt [(c!"x: 1", c!"a")] c!"b: 2" (.mk 0 [.mk c!"b" (.int 2)] none) g w →
      v.cid ∉ w.ids := by
  obtain ⟨st, -, hc⟩ := at_place sampleInside
  have he : SpExpr (.mk (.arr []) []) c!"[]" := .mk (s := c!"[]") (u := []) (.arr (s := []) (.nil .nil)) .nil
  have hy : FieldName c!"y" := sampleFieldName 'y' (by decide)
  have hn : NotNamed (Obj.pairs (.mk 0 [.mk c!"b" (.int 2)] none)) c!"y" := by
    simp [NotNamed, Obj.pairs, Pair.field]
  obtain ⟨-, -, h3⟩ := field_at hc hy hn he
  obtain ⟨-, p', h4, h5, -⟩ := h3 (.arr st.rt.curId .any []) (st.withId st.rt.next) (by rw [evalExpr_term]; rfl)
  have hd : Denotes noFiles startRt [(c!"x: 1", c!"a")] c!"b: 2" (.mk 0 [.mk c!"b" (.int 2)] none) c!"[]"
      (.arr st.rt.curId .any []) := ⟨_, p', hy, hn, h4, h5⟩
  exact ⟨_, hd, (c47_literal_is_new _ _ startRt_fine _ _ _ sampleInside _ (.arr (s := []) (es := []) (.nil .nil)) _ hd).2⟩

end

end Over
