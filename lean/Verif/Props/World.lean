import Verif.Lemmas.World
import Verif.Props.Parsing

/-!
# C72: files that change while they are parsed

`fromStrW w`, `fromFileW w fs` (`Model/World.lean`) parse in a file system that changes at every access; `FS.SameTree`, `Snapshot`,
`FSWorld.SmallFiles` are in `Spec/World.lean`.
-/

namespace Over

section
variable [Unicode]

omit [Unicode] in
theorem get_map (l : List (Str × Except Str Str)) (g : Str → Except Str Str → Except Str Str) (c : Str) :
    StrMap.get (l.map fun e => (e.1, g e.1 e.2)) c = (StrMap.get l c).map (g c) := by
  unfold StrMap.get
  induction l with
  | nil => rfl
  | cons e l ih =>
    simp only [List.map_cons, List.find?_cons]
    by_cases h : e.1 = c
    · simp [h]
    · have : (e.1 == c) = false := by simpa using h
      rw [this]
      exact ih

/-- The snapshot with what has been seen. -/
def FS.seen (fs : FS) (K : Seen) : FS := { fs with nodes := fs.nodes.map fun e => (e.1, (K e.1).getD ((StrMap.get fs.nodes e.1).getD e.2)) }

omit [Unicode] in
theorem seen_get (fs : FS) (K : Seen) (c : Str) : StrMap.get (fs.seen K).nodes c = (StrMap.get fs.nodes c).map fun x => (K c).getD x := by
  unfold FS.seen
  rw [get_map fs.nodes (fun c x => (K c).getD ((StrMap.get fs.nodes c).getD x))]
  cases StrMap.get fs.nodes c <;> rfl

omit [Unicode] in
theorem seen_agrees {fs : FS} {K : Seen} (hK : ∀ c x, K c = some x → (StrMap.get fs.nodes c).isSome = true) : Agrees fs K (fs.seen K) := by
  refine ⟨⟨rfl, rfl, fun c => ?_⟩, fun c x hc => ?_⟩
  · rw [seen_get]; cases StrMap.get fs.nodes c <;> rfl
  · rw [seen_get]
    obtain ⟨y, hy⟩ := Option.isSome_iff_exists.1 (hK c x hc)
    rw [hy, hc]
    rfl

omit [Unicode] in
theorem get_mem {l : List (Str × Except Str Str)} {c : Str} {x : Except Str Str} (h : (c, x) ∈ l) : ∃ y, StrMap.get l c = some y := by
  unfold StrMap.get
  cases e : List.find? (fun e => e.1 == c) l with
  | some e' => exact ⟨e'.2, rfl⟩
  | none => exact absurd (List.find?_eq_none.1 e _ h) (by simp)

omit [Unicode] in
theorem sum_le {l : List (Str × Except Str Str)} {L : Nat} (h : ∀ e ∈ l, ∀ t, e.2 = .ok t → t.length ≤ L) :
    (l.map (fun e => match e.2 with | .ok s => s.length | .error _ => 0)).sum ≤ l.length * L := by
  induction l with
  | nil => simp
  | cons e l ih =>
    have h1 := ih fun e' he => h e' (List.mem_cons_of_mem _ he)
    have h2 : (match e.2 with | .ok s => s.length | .error _ => 0) ≤ L := by
      cases e' : e.2 with
      | error _ => exact Nat.zero_le _
      | ok t => exact h e (List.mem_cons_self ..) t e'
    simp only [List.map_cons, List.sum_cons, List.length_cons, Nat.add_mul, Nat.one_mul]
    omega

/-- What a file was at some moment. -/
def WasAt (fs : FS) (w : FSWorld) (c : Str) (x : Except Str Str) : Prop :=
  StrMap.get fs.nodes c = some x ∨ ∃ s, StrMap.get (w s).nodes c = some x

omit [Unicode] in
theorem seen_snapshot {fs : FS} {w : FSWorld} (hw : ∀ s, fs.SameTree (w s)) {K : Seen} (hK : ∀ c x, K c = some x → WasAt fs w c x) :
    Agrees fs K (fs.seen K) ∧ Snapshot fs w (fs.seen K) ∧
      ∀ L, w.SmallFiles fs L → (fs.seen K).size ≤ fs.nodes.length * L := by
  have hsome : ∀ c x, K c = some x → (StrMap.get fs.nodes c).isSome = true := fun c x hc => by
    rcases hK c x hc with h | ⟨s, h⟩
    · rw [h]; rfl
    · rw [← (hw s).files, h]; rfl
  have ha := seen_agrees hsome
  have hcon : ∀ c x, StrMap.get (fs.seen K).nodes c = some x → WasAt fs w c x := fun c x h => by
    rw [seen_get] at h
    cases hk : K c with
    | some y =>
      rw [hk] at h
      cases hg : StrMap.get fs.nodes c with
      | none => rw [hg] at h; cases h
      | some z => rw [hg] at h; cases h; exact hK c _ hk
    | none =>
      rw [hk] at h
      cases hg : StrMap.get fs.nodes c with
      | none => rw [hg] at h; cases h
      | some z => rw [hg] at h; cases h; exact .inl hg
  refine ⟨ha, ⟨ha.1, hcon⟩, fun L hL => ?_⟩
  have : (fs.seen K).nodes.length = fs.nodes.length := by simp [FS.seen]
  rw [← this]
  unfold FS.size
  refine sum_le fun e he t ht => ?_
  unfold FS.seen at he
  obtain ⟨e0, h0, rfl⟩ := List.mem_map.1 he
  simp only at ht
  cases hk : K e0.1 with
  | some y => rw [hk] at ht; exact hL e0.1 t (by rw [show y = _ from ht] at hk; exact hK _ _ hk)
  | none =>
    rw [hk] at ht
    obtain ⟨y, hy⟩ := get_mem (x := e0.2) h0
    rw [hy] at ht
    exact hL e0.1 t (.inl (by rw [hy]; exact congrArg some ht))

/-- C72: a text is parsed as if all files had been read at once: while it is parsed, the files that it includes can be changed, emptied,
made unreadable at any time; the result is that of `from_str` in a snapshot, in which every file is what it was at some moment. -/
theorem c72_from_str_snapshot (w : FSWorld) (fs : FS) (hw : ∀ s, fs.SameTree (w s)) (L : Nat) (hL : w.SmallFiles fs L) (text : Str) (rt : Rt)
    (n : Nat) (hn : text.length + fs.nodes.length * L ≤ n) :
    ∃ snap, Snapshot fs w snap ∧ fromStrW w n text rt = fromStr snap text rt := by
  obtain ⟨K, -, h2, h3, -⟩ := parseObjStream_snap (parseValue_snap (V := WasAt fs w) hw (fun s c x h => .inr ⟨s, h⟩) n)
    (PState.init none text rt) (fun _ => none) (fun _ _ h => by cases h)
  obtain ⟨g1, g2, g3⟩ := seen_snapshot hw h2
  refine ⟨fs.seen K, g2, ?_⟩
  have hsz := g3 L hL
  have e1 := c23_bound_irrelevant (fs.seen K) text rt n (by omega)
  have e2 := c23_bound_irrelevant (fs.seen K) text rt ((fs.seen K).fuel text) (by simp only [FS.fuel]; omega)
  unfold fromStr
  rw [e2, ← e1]
  exact (h3 _ g1).symm

/-- C72: the same for `from_file`; the text of the file itself is what it was at the beginning, whatever becomes of it later. -/
theorem c72_from_file_snapshot (w : FSWorld) (fs : FS) (hw : ∀ s, fs.SameTree (w s)) (L : Nat) (hL : w.SmallFiles fs L) (path : Str) (rt : Rt)
    (n : Nat) (hn : L + fs.nodes.length * L ≤ n) :
    ∃ snap, Snapshot fs w snap ∧ snap.read path = fs.read path ∧ fromFileW w fs n path rt = fromFile snap path rt := by
  cases hr : fs.read path with
  | error m =>
    refine ⟨fs, ⟨⟨rfl, rfl, fun _ => rfl⟩, fun c x h => .inl h⟩, hr, ?_⟩
    simp only [fromFileW, fromFile, hr]
  | ok text =>
    obtain ⟨c, hc⟩ := read_resolve hr
    have hget : StrMap.get fs.nodes c = some (.ok text) := by
      simp only [FS.read, hc] at hr
      cases e : StrMap.get fs.nodes c with
      | none => rw [e] at hr; cases hr
      | some x => rw [e] at hr; simp only at hr; rw [hr]
    obtain ⟨K, h1, h2, h3, -⟩ := parseObjStream_snap (parseValue_snap (V := WasAt fs w) hw (fun s c x h => .inr ⟨s, h⟩) n)
      (PState.init (some path) text rt) (fun c' => if c' = c then some (.ok text) else none) (fun c' x h => by
        split at h
        · rename_i e
          cases h
          exact ⟨.inr (.inr ⟨path, rfl, e ▸ hc⟩), .inl (e ▸ hget)⟩
        · cases h)
    obtain ⟨g1, g2, g3⟩ := seen_snapshot hw h2
    have hread : (fs.seen K).read path = .ok text := by
      have := g1.2 c _ (h1 c (.ok text) (if_pos rfl))
      simp only [FS.read, g1.1.resolve, hc, this]
    refine ⟨fs.seen K, g2, hread, ?_⟩
    have hsz := g3 L hL
    have hlen := hL c text (.inl hget)
    rw [← c23_bound_irrelevant_file (fs.seen K) path text rt hread n (by omega)]
    simp only [fromFileW, hr]
    exact (h3 _ g1).symm

/-- C72: so changes of the files during a parse lead neither to a panic nor to an endless parse. -/
theorem c72_no_panic (w : FSWorld) (fs : FS) (hw : ∀ s, fs.SameTree (w s)) (L : Nat) (hL : w.SmallFiles fs L) (rt : Rt) (n : Nat) :
    (∀ text, text.length + fs.nodes.length * L ≤ n → fromStrW w n text rt ≠ .panic ∧ fromStrW w n text rt ≠ .oof) ∧
    ∀ path, L + fs.nodes.length * L ≤ n → (∀ c, fs.resolve path = some c → fs.utf8 c = true) →
      fromFileW w fs n path rt ≠ .panic ∧ fromFileW w fs n path rt ≠ .oof := by
  refine ⟨fun text hn => ?_, fun path hn hu => ?_⟩
  · obtain ⟨snap, -, h⟩ := c72_from_str_snapshot w fs hw L hL text rt n hn
    rw [h]
    exact ⟨c24_from_str_no_panic snap text rt, c23_from_str_terminates snap text rt⟩
  · obtain ⟨snap, h1, -, h⟩ := c72_from_file_snapshot w fs hw L hL path rt n hn
    rw [h]
    exact ⟨c24_from_file_no_panic snap path rt (by rw [h1.tree.resolve, h1.tree.utf8]; exact hu), c23_from_file_terminates snap path rt⟩

/-- C72: with a file system that does not change, this is the parser of the other properties. -/
theorem c72_unchanged (fs : FS) (n : Nat) : parseValueW (fun _ => fs) n = parseValue fs n := by
  induction n with
  | zero => rfl
  | succ n ih =>
    show parseValueBodyW _ (parseValueW (fun _ => fs) n) = parseValueBody fs (parseValue fs n)
    rw [ih]
    rfl

end

/-- C72: that the tree stays is needed: when a file is removed while it is parsed, its first include makes `from_file` panic (`canonicalize`
of the path of the current file is unwrapped); likewise `from_str`, when an included file is removed while it is parsed. -/
theorem c72_removed_file_can_panic :
    (∃ (u : Unicode) (w : FSWorld) (fs : FS) (n : Nat) (path : Str) (rt : Rt), @fromFileW u w fs n path rt = .panic) ∧
    ∃ (u : Unicode) (w : FSWorld) (n : Nat) (text : Str) (rt : Rt), @fromStrW u w n text rt = .panic := by
  have key : ∀ {α : Type} {r : Res α}, r.panicked = true → r = .panic := by
    intro α r h
    cases r <;> first | rfl | cases h
  refine ⟨⟨sampleUnicode, fun _ => files [(c!"b", c!"y: 1")], files [(c!"m", c!"x: <\"b\">"), (c!"b", c!"y: 1")], 9, c!"m", startRt, ?_⟩,
    sampleUnicode, fun s => if s.stream.file = none then files [(c!"m", c!"x: <\"b\">"), (c!"b", c!"y: 1")] else files [(c!"b", c!"y: 1")],
    9, c!"z: <\"m\">", startRt, ?_⟩
  · exact key (by decide +kernel)
  · exact key (by decide +kernel)

/-! ## Examples -/

attribute [local instance] sampleUnicode

/-- A file `b` that is rewritten after its first include: `1`, later `2` (a text that is not even well-formed). -/
def sampleWorld : FSWorld := fun s => files [(c!"b", if s.inc.cache.isEmpty then c!"y: 1" else c!"y: 2 }")]

/-- The file system before. -/
def sampleBefore : FS := files [(c!"b", c!"y: 0")]

theorem sampleWorld_get (s : PState) (c : Str) : StrMap.get (sampleWorld s).nodes c =
    if c = c!"b" then some (.ok (if s.inc.cache.isEmpty then c!"y: 1" else c!"y: 2 }")) else none := by
  simp only [sampleWorld, files, StrMap.get, List.map_cons, List.map_nil, List.find?_cons, List.find?_nil]
  by_cases h : c = c!"b"
  · subst h; rfl
  · have : (c!"b" == c) = false := by simpa using fun h' => h h'.symm
    rw [this, if_neg h]

theorem sampleBefore_get (c : Str) : StrMap.get sampleBefore.nodes c =
    if c = c!"b" then some (.ok c!"y: 0") else none := by
  simp only [sampleBefore, files, StrMap.get, List.map_cons, List.map_nil, List.find?_cons, List.find?_nil]
  by_cases h : c = c!"b"
  · subst h; rfl
  · have : (c!"b" == c) = false := by simpa using fun h' => h h'.symm
    rw [this, if_neg h]

/-- The hypotheses hold, and both includes give the first version. -/
example : (∀ s, sampleBefore.SameTree (sampleWorld s)) ∧ sampleWorld.SmallFiles sampleBefore 6 ∧
    (fromStrW sampleWorld 30 c!"a: <\"b\"> e: <\"b\">" startRt).written = some c!"a: {\n    y: 1\n}\ne: {\n    y: 1\n}\n" := by
  refine ⟨fun s => ⟨rfl, rfl, fun c => ?_⟩, fun c t h => ?_, by decide +kernel⟩
  · rw [sampleWorld_get, sampleBefore_get]
    split <;> rfl
  · rcases h with h | ⟨s, h⟩
    · rw [sampleBefore_get] at h
      split at h
      · cases h; decide
      · cases h
    · rw [sampleWorld_get] at h
      split at h
      · simp only [Option.some.injEq, Except.ok.injEq] at h
        subst h
        split <;> decide
      · cases h

end Over
