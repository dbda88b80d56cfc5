import Verif.Lemmas.Alloc
import Verif.Props.Parsing
import Verif.Props.Identity
import Verif.Props.Repeat
import Verif.Props.Literals
import Verif.Props.Operators

/-!
# C80: how many containers a parse creates, and how large a value it can denote

`rt.time` counts the ids that the parse has taken from the process-wide counter (`gen_id`, and the keywords on their first use).
-/

set_option linter.unusedSectionVars false

namespace Over

theorem filesCost_le (ex : Str → Bool) : ∀ nodes : List (Str × Except Str Str),
    filesCost ex nodes ≤ (nodes.map fun e => nodeSize e.2).sum + nodes.length
  | [] => Nat.le_refl _
  | e :: l => by
    have := filesCost_le ex l
    simp only [filesCost, List.map_cons, List.sum_cons, List.length_cons] at this ⊢
    split <;> omega

theorem nodeSizes (fs : FS) : (fs.nodes.map fun e => nodeSize e.2).sum = fs.size := by
  simp only [FS.size]
  congr 1

section
variable [Unicode]

/-- C80: `Obj::from_str` takes at most one id for each character of the text, for each character of a file and for each file, and five
more. -/
theorem c80_ids (fs : FS) (text : Str) (rt : Rt) (o : Obj) (s : PState) (h : fromStr fs text rt = .ok o s) :
    s.rt.time ≤ rt.time + (text.length + fs.size + fs.nodes.length + 5) := by
  have h1 := (parseObjStream_pays (F := none) (O := []) (parseValue_pays rt fs (fs.fuel text)) (fun c h => by cases h) (PState.init none text rt)
    ⟨rfl, rfl, fun _ => ⟨rfl, rfl⟩⟩ o s h).2
  have h2 := filesCost_le (readBefore (inReading fs none []) (PState.init none text rt).inc.cache) fs.nodes
  have h3 := unused_le rt.toShared
  rw [nodeSizes] at h2
  simp only [bill] at h1
  simp only [PState.init, Stream.ofString] at h1 h2
  omega

/-- C80: the same for `Obj::from_file`. -/
theorem c80_ids_file (fs : FS) (path : Str) (rt : Rt) (o : Obj) (s : PState) (h : fromFile fs path rt = .ok o s) :
    s.rt.time ≤ rt.time + (fs.size + fs.nodes.length + 4) := by
  cases hr : fs.read path with
  | error m => simp only [fromFile, hr] at h; cases h
  | ok text =>
    simp only [fromFile, hr] at h
    obtain ⟨c, hc⟩ := read_resolve hr
    have hnode : StrMap.get fs.nodes c = some (.ok text) := by
      simp only [FS.read, hc] at hr
      cases hg : StrMap.get fs.nodes c with
      | some r => rw [hg] at hr; rw [← hr]
      | none => rw [hg] at hr; cases hr
    have h1 := (parseObjStream_pays (F := some path) (O := []) (parseValue_pays rt fs (fs.fuel text)) (fun c h => List.not_mem_nil)
      (PState.init (some path) text rt) ⟨rfl, rfl, fun _ => ⟨rfl, rfl⟩⟩ o s h).2
    have h2 := filesCost_less (ex := fun _ => false) (ex' := readBefore [c] []) (fun _ h => by cases h) (full := c) rfl
      (by simp [readBefore]) (StrMap.get_mem hnode)
    have h3 := unused_le rt.toShared
    have h4 := filesCost_le (fun _ => false) fs.nodes
    rw [nodeSizes] at h4
    simp only [bill] at h1
    simp only [PState.init, Stream.ofString, inReading, Option.bind_some, hc, nodeSize] at h1 h2
    omega

/-! ## Different containers -/

mutual
theorem Value.mapIds_ids (f : Nat → Nat) : ∀ v : Value, (v.mapIds f).ids = v.ids.map f
  | .null => rfl
  | .bool _ => rfl
  | .int _ => rfl
  | .frac _ => rfl
  | .str _ => rfl
  | .arr i t vs => by
    have := Value.mapIdsL_ids f vs
    simp only [Value.mapIds, Value.ids, Value.containers, List.map_cons, Value.cid, this]
  | .tup i t vs => by
    have := Value.mapIdsL_ids f vs
    simp only [Value.mapIds, Value.ids, Value.containers, List.map_cons, Value.cid, this]
  | .obj o => by
    have := Obj.mapIds_ids f o
    simp only [Obj.ids] at this
    simpa only [Value.mapIds, Value.ids, Value.containers] using this
termination_by structural v => v
theorem Value.mapIdsL_ids (f : Nat → Nat) : ∀ vs : List Value,
    (Value.containersL (Value.mapIdsL f vs)).map Value.cid = ((Value.containersL vs).map Value.cid).map f
  | [] => rfl
  | v :: vs => by
    have h1 := Value.mapIds_ids f v
    have h2 := Value.mapIdsL_ids f vs
    simp only [Value.ids] at h1
    simp only [Value.mapIdsL, Value.containersL, List.map_append, h1, h2]
termination_by structural v => v
theorem Pair.mapIdsL_ids (f : Nat → Nat) : ∀ vs : List Pair,
    (Pair.containersL (Pair.mapIdsL f vs)).map Value.cid = ((Pair.containersL vs).map Value.cid).map f
  | [] => rfl
  | .mk x v :: vs => by
    have h1 := Value.mapIds_ids f v
    have h2 := Pair.mapIdsL_ids f vs
    simp only [Value.ids] at h1
    simp only [Pair.mapIdsL, Pair.containersL, List.map_append, h1, h2]
termination_by structural v => v
theorem Obj.mapIdsP_ids (f : Nat → Nat) : ∀ p : Option Obj,
    (Obj.containersP (Obj.mapIdsP f p)).map Value.cid = ((Obj.containersP p).map Value.cid).map f
  | none => rfl
  | some o => by
    have := Obj.mapIds_ids f o
    simp only [Obj.ids] at this
    simpa only [Obj.mapIdsP, Obj.containersP] using this
termination_by structural v => v
theorem Obj.mapIds_ids (f : Nat → Nat) : ∀ o : Obj, (o.mapIds f).ids = o.ids.map f
  | .mk i ps par => by
    have h1 := Pair.mapIdsL_ids f ps
    have h2 := Obj.mapIdsP_ids f par
    simp only [Obj.mapIds, Obj.ids, Obj.containers, List.map_cons, List.map_append, Value.cid, Obj.id, h1, h2]
termination_by structural v => v
end

/-- The ids of an object that was read are among as many as were taken when nothing else was running. -/
theorem ids_among {fs : FS} {text : Str} {rt : Rt} (hf : rt.Fine) {o : Obj} {s : PState} (h : fromStr fs text rt = .ok o s) :
    ∃ l : List Nat, l.length ≤ text.length + fs.size + fs.nodes.length + 5 ∧ ∀ i ∈ o.ids, i ∈ l := by
  have h1 := c51_from_str fs text startRt rt startRt_fine hf
  rw [h] at h1
  cases h0 : fromStr fs text startRt with
  | err e => rw [h0] at h1; cases h1
  | panic => rw [h0] at h1; cases h1
  | oof => rw [h0] at h1; cases h1
  | ok o0 s0 =>
    rw [h0] at h1
    obtain ⟨f, rfl, -, -⟩ := h1
    have h2 := c80_ids fs text startRt o0 s0 h0
    have h3 := (parseObjStream_pays (F := none) (O := []) (parseValue_pays startRt fs (fs.fuel text)) (fun c h => by cases h)
      (PState.init none text startRt) ⟨rfl, rfl, fun _ => ⟨rfl, rfl⟩⟩ o0 s0 h0).1.grown (fun _ _ => rfl)
    refine ⟨(List.range s0.rt.curId).map f, ?_, ?_⟩
    · have h4 := h3.2
      simp only [startRt] at h2 h4
      simp only [List.length_map, List.length_range]
      omega
    · intro i hi
      rw [Obj.mapIds_ids] at hi
      obtain ⟨j, hj, rfl⟩ := List.mem_map.1 hi
      obtain ⟨c, hc, rfl⟩ := List.mem_map.1 hj
      exact List.mem_map.2 ⟨_, List.mem_range.2 (c47_containers_are_new fs text startRt startRt_fine o0 s0 h0 c hc).1, rfl⟩

theorem ids_among_file {fs : FS} {path full : Str} (hp : fs.resolve path = some full) {rt : Rt} (hf : rt.Fine) {o : Obj} {s : PState}
    (h : fromFile fs path rt = .ok o s) :
    ∃ l : List Nat, l.length ≤ fs.size + fs.nodes.length + 4 ∧ ∀ i ∈ o.ids, i ∈ l := by
  have h1 := c51_from_file fs path startRt rt startRt_fine hf
  rw [h] at h1
  cases h0 : fromFile fs path startRt with
  | err e => rw [h0] at h1; cases h1
  | panic => rw [h0] at h1; cases h1
  | oof => rw [h0] at h1; cases h1
  | ok o0 s0 =>
    rw [h0] at h1
    obtain ⟨f, rfl, -, -⟩ := h1
    have h2 := c80_ids_file fs path startRt o0 s0 h0
    have h3 : Grown startRt s0.rt := by
      cases hr : fs.read path with
      | error m => simp only [fromFile, hr] at h0; cases h0
      | ok text =>
        simp only [fromFile, hr] at h0
        exact (parseObjStream_pays (F := some path) (O := []) (parseValue_pays startRt fs (fs.fuel text)) (fun c h => List.not_mem_nil)
          (PState.init (some path) text startRt) ⟨rfl, rfl, fun _ => ⟨rfl, rfl⟩⟩ o0 s0 h0).1.grown
    refine ⟨(List.range s0.rt.curId).map f, ?_, ?_⟩
    · have h4 := (h3 fun _ _ => rfl).2
      simp only [startRt] at h2 h4
      simp only [List.length_map, List.length_range]
      omega
    · intro i hi
      rw [Obj.mapIds_ids] at hi
      obtain ⟨j, hj, rfl⟩ := List.mem_map.1 hi
      obtain ⟨c, hc, rfl⟩ := List.mem_map.1 hj
      exact List.mem_map.2 ⟨_, List.mem_range.2 (c47_containers_are_new_file fs path full startRt startRt_fine o0 s0 hp h0 c hc).1, rfl⟩

theorem containers_among {o : Obj} {l : List Nat} (hl : ∀ i ∈ o.ids, i ∈ l) (hs : ∀ c ∈ o.containers, ∀ c' ∈ o.containers, c.cid = c'.cid → c = c')
    (c : Value) (hc : c ∈ o.containers) : c ∈ l.filterMap fun i => o.containers.find? fun d => d.cid == i := by
  refine List.mem_filterMap.2 ⟨c.cid, hl _ (List.mem_map.2 ⟨c, hc, rfl⟩), ?_⟩
  cases hf : o.containers.find? fun d => d.cid == c.cid with
  | none =>
    have := List.find?_eq_none.1 hf c hc
    simp at this
  | some d =>
    have h1 := List.mem_of_find?_eq_some hf
    have h2 := List.find?_some hf
    rw [hs d h1 c hc (by simpa using h2)]

/-- C80: an object read by `Obj::from_str` is made of few different containers, no matter how often each of them is reached, and no matter what
other threads do. -/
theorem c80_containers (fs : FS) (text : Str) (rt : Rt) (hf : rt.Fine) (o : Obj) (s : PState) (h : fromStr fs text rt = .ok o s) :
    ∃ l : List Value, l.length ≤ text.length + fs.size + fs.nodes.length + 5 ∧ ∀ c ∈ o.containers, c ∈ l := by
  obtain ⟨l, h1, h2⟩ := ids_among hf h
  exact ⟨_, (List.length_filterMap_le _ l).trans h1,
    containers_among h2 fun c hc c' hc' => c47_same_id_same_container fs text rt hf o s h c hc c' hc'⟩

/-- C80: the same for `Obj::from_file`. -/
theorem c80_containers_file (fs : FS) (path full : Str) (hp : fs.resolve path = some full) (rt : Rt) (hf : rt.Fine) (o : Obj) (s : PState)
    (h : fromFile fs path rt = .ok o s) :
    ∃ l : List Value, l.length ≤ fs.size + fs.nodes.length + 4 ∧ ∀ c ∈ o.containers, c ∈ l := by
  obtain ⟨l, h1, h2⟩ := ids_among_file hp hf h
  exact ⟨_, (List.length_filterMap_le _ l).trans h1,
    containers_among h2 fun c hc c' hc' => c47_same_id_same_container_file fs path full rt hf o s hp h c hc c' hc'⟩

/-! ## Large values -/

/-- `a`, `aa`, `aaa`, … -/
def growName (i : Nat) : Str := List.replicate (i + 1) 'a'

/-- `a: lit`, then each field is made of the one before, twice: `aa: a∘a`, `aaa: aa∘aa`, … -/
def growText (lit : Str) (op : BinOp) : Nat → Str
  | 0 => c!"\n" ++ growName 0 ++ c!":" ++ lit
  | n + 1 => growText lit op n ++ c!"\n" ++ growName (n + 1) ++ c!":" ++ (growName n ++ opChar op :: growName n)

theorem growText_length (lit : Str) (op : BinOp) : ∀ n, (growText lit op n).length ≤ 2 * (n + 2) ^ 2 + lit.length
  | 0 => by simp only [growText, growName, List.length_append, List.length_replicate, List.length_cons, List.length_nil]; omega
  | n + 1 => by
    have := growText_length lit op n
    simp only [growText, growName, List.length_append, List.length_replicate, List.length_cons, List.length_nil]
    have e : (n + 1 + 2) ^ 2 = (n + 2) ^ 2 + (2 * n + 5) := by ring
    omega

theorem growName_field (i : Nat) : FieldName (growName i) := by
  have h : isAlphabetic 'a' = true := rfl
  refine ⟨'a', List.replicate i 'a', rfl, .inl h, fun d hd => ?_, fun hm => ?_⟩
  · rw [List.eq_of_mem_replicate hd]; exact .inl h
  · have : ∀ w ∈ reservedWords, w.head? ≠ some 'a' := by decide
    exact this _ hm rfl

theorem growName_inj {i j : Nat} (h : growName i = growName j) : i = j := by
  have := congrArg List.length h
  simpa [growName] using this

/-- The fields of `growText`. -/
theorem grow_reads (fs : FS) (rt : Rt) (lit : Str) (op : BinOp) (seq : Nat → Value) (hseq : ∀ i r, r.data = (seq i).data → r = seq i)
    (h0 : ∃ o s, fromStr fs (growText lit op 0) rt = .ok o s ∧ o.pairs = [.mk (growName 0) (seq 0)])
    (hop : ∀ i, OpTable op (seq i) (seq i) (.value (seq (i + 1)))) : ∀ n, ∃ o s, fromStr fs (growText lit op n) rt = .ok o s ∧
      o.pairs = (List.range (n + 1)).map fun i => .mk (growName i) (seq i)
  | 0 => h0
  | n + 1 => by
    obtain ⟨o, s, h1, h2⟩ := grow_reads fs rt lit op seq hseq h0 hop n
    have hne : ∀ m, n < m → NotNamed o.pairs (growName m) := by
      intro m hm p hp he
      rw [h2] at hp
      obtain ⟨i, hi, rfl⟩ := List.mem_map.1 hp
      have := growName_inj he
      have := List.mem_range.1 hi
      omega
    have hfn : FirstNamed o.pairs (growName n) (seq n) := by
      refine ⟨(List.range n).map fun i => .mk (growName i) (seq i), [], ?_, ?_⟩
      · rw [h2, List.range_succ, List.map_append]; rfl
      · intro p hp he
        obtain ⟨i, hi, rfl⟩ := List.mem_map.1 hp
        have := growName_inj he
        have := List.mem_range.1 hi
        omega
    obtain ⟨o', s', r', h3, h4, -, h5⟩ := (c29_operation fs rt _ o s h1 _ _ (growName (n + 1)) _ _ hfn hfn (growName_field _) (hne _ (by omega)) op).1 _ (hop n)
    refine ⟨o', s', h3, ?_⟩
    rw [h4, h2, hseq _ _ h5, List.range_succ (n := n + 1), List.map_append]
    rfl

theorem fromStr_nil (fs : FS) (rt : Rt) : ∃ o s, fromStr fs [] rt = .ok o s ∧ o.pairs = [] := ⟨_, _, rfl, rfl⟩

/-- C80: a text of quadratic length denotes an object with a string of `2 ^ n` characters. -/
theorem c80_long_string (fs : FS) (rt : Rt) (n : Nat) : ∃ text o s x, text.length ≤ 2 * (n + 2) ^ 2 + 3 ∧ fromStr fs text rt = .ok o s ∧
    .mk (growName n) (.str x) ∈ o.pairs ∧ x.length = 2 ^ n := by
  obtain ⟨o, s, h1, h2⟩ := grow_reads fs rt c!"\"x\"" .plus (fun i => .str (List.replicate (2 ^ i) 'x'))
    (fun i r h => by cases r <;> simp [Value.data] at h ⊢; exact h)
    (by
      obtain ⟨o, s, h1, h2⟩ := fromStr_nil fs rt
      obtain ⟨o', s', h3, h4, -⟩ := c50_string fs rt [] o s h1 (growName 0) (growName_field 0) (by rw [h2]; intro p hp; cases hp) c!"x" c!"x"
        (.raw (by decide) (by decide) .nil)
      exact ⟨o', s', h3, by rw [h4, h2]; rfl⟩)
    (fun i => by
      have : List.replicate (2 ^ (i + 1)) 'x' = List.replicate (2 ^ i) 'x' ++ List.replicate (2 ^ i) 'x' := by
        rw [List.replicate_append_replicate, Nat.pow_succ]; congr 1; omega
      rw [this]
      exact .concatStr _ _) n
  refine ⟨_, o, s, List.replicate (2 ^ n) 'x', growText_length _ _ n, h1, ?_, List.length_replicate⟩
  rw [h2]
  exact List.mem_map.2 ⟨n, List.mem_range.2 (by omega), rfl⟩

/-- C80: a text of quadratic length denotes an object with an integer of more than `2 ^ n` binary digits. -/
theorem c80_large_integer (fs : FS) (rt : Rt) (n : Nat) : ∃ text o s, text.length ≤ 2 * (n + 2) ^ 2 + 1 ∧ fromStr fs text rt = .ok o s ∧
    .mk (growName n) (.int (2 ^ 2 ^ n)) ∈ o.pairs := by
  obtain ⟨o, s, h1, h2⟩ := grow_reads fs rt c!"2" .mult (fun i => .int (2 ^ 2 ^ i))
    (fun i r h => by cases r <;> simp [Value.data] at h ⊢; exact h)
    (by
      obtain ⟨o, s, h1, h2⟩ := fromStr_nil fs rt
      obtain ⟨o', s', h3, h4, -⟩ := c31_integer fs rt [] o s h1 (growName 0) (growName_field 0) (by rw [h2]; intro p hp; cases hp) 2 c!"2"
        ⟨⟨by decide, by decide⟩, ⟨_, _, rfl, by decide⟩, by decide⟩
      exact ⟨o', s', h3, by rw [h4, h2]; rfl⟩)
    (fun i => by
      have : (2 : Int) ^ 2 ^ (i + 1) = 2 ^ 2 ^ i * 2 ^ 2 ^ i := by rw [← pow_add, pow_succ]; congr 1; omega
      rw [this]
      exact .mulInt _ _) n
  refine ⟨_, o, s, growText_length _ _ n, h1, ?_⟩
  rw [h2]
  exact List.mem_map.2 ⟨n, List.mem_range.2 (by omega), rfl⟩

end

/-- The ids taken by a run that began at 0, and the ways to reach a container of the result. -/
def Res.took : Res Obj → Nat × Nat
  | .ok o s => (s.rt.time, o.containers.length)
  | _ => (0, 0)

section
attribute [local instance] sampleUnicode

/-- Two fields, the second of them `"xx"`. -/
example : ∃ s, fromStr noFiles (growText c!"\"x\"" .plus 1) startRt = .ok (.mk 0 [.mk c!"a" (.str c!"x"), .mk c!"aa" (.str c!"xx")] none) s :=
  Res.gives_ok (by decide +kernel)

/-- 2 ids are taken, while containers are reached in 4 ways. -/
example : (fromStr noFiles c!"a: () b: a c: a" startRt).took = (2, 4) := by decide +kernel

/-- The hypotheses of the theorems about files are met. -/
example : ∃ s, sampleFiles.resolve c!"f" = some c!"f" ∧ fromFile sampleFiles c!"f" usedRt =
    .ok (.mk 6 [.mk c!"k" (.obj (.mk 5 [.mk c!"i" (.int 7)] none))] none) s := by
  obtain ⟨s, h⟩ : ∃ s, fromFile sampleFiles c!"f" usedRt =
      .ok (.mk 6 [.mk c!"k" (.obj (.mk 5 [.mk c!"i" (.int 7)] none))] none) s := Res.gives_ok (by decide +kernel)
  exact ⟨s, by decide +kernel, h⟩

end
end Over
