import Verif.Lemmas.Topology
/-!
# C57, C58, C59: start-up wiring

* C59 — after every history of the adjacency matrix its operations answer from exactly the edges of
  the history.
* C57 — after start-up, the upstream nodes of sinks and filters, and the channels of filters,
  sources and the flush timer, are exactly those the configuration names.
* C58 — start-up succeeds exactly if every forward has a channel and no filter is isolated; a node
  with a bad forward is never started.
-/
namespace Verif
open Matrix Topology

/-! ## C59 -/

private theorem run_append {M : Type} (ops more : List (Op M)) : ∀ b : Adjacency M,
    run b (ops ++ more) = run (run b ops) more := by
  induction ops with
  | nil => intro b; rfl
  | cons op ops ih => intro b; cases op <;> exact ih _

/-- **C59.**  After every history of a matrix that starts empty: a node is present exactly if it has
an edge; counting counts its edges; filtering lists, once each, exactly its edges that pass (and
panics exactly on an absent node); popping lists its neighbours once each, or the metadata of its
edges, and removes that node's edges and no others. -/
theorem C59_matrix {M : Type} (ops : List (Op M)) (x : Str) :
    let a := run {} ops
    let e := edge ops.reverse x
    (a.containsNode x = true ↔ ∃ y, (e y).isSome) ∧
    (∃ ys : List Str, ys.Nodup ∧ (∀ y, y ∈ ys ↔ (e y).isSome) ∧ a.numEdges x = ys.length ∧
      (a.popNodes x).1 = ys) ∧
    (∀ f, a.filterNodes x f = none ↔ ∀ y, e y = none) ∧
    (∀ f ys, a.filterNodes x f = some ys → ys.Nodup ∧
      ∀ y, y ∈ ys ↔ ∃ md, e y = some md ∧ f (y, md) = true) ∧
    (∃ ys : List (Str × M), (ys.map (·.1)).Nodup ∧ (a.popMetadata x).1 = ys.map (·.2) ∧
      ∀ y m, (y, m) ∈ ys ↔ e y = some (some m)) ∧
    (a.popNodes x).2 = run {} (ops ++ [.pop x]) ∧ (a.popMetadata x).2 = run {} (ops ++ [.pop x]) := by
  intro a e
  obtain ⟨h1, h2, h3⟩ := run_spec ops ({} : Adjacency M) [] Adjacency.ok_new
    (by simp [Adjacency.Full, Assoc.get]) (by simp [Adjacency.row, Assoc.get, edge])
  simp only [List.append_nil] at h3
  have he : ∀ y, Assoc.get (a.row x) y = e y := fun y => h3 x y
  have hrow : Assoc.Ok (a.row x) := h1.row x
  have hne : Assoc.get a.edges x = none ↔ ∀ y, e y = none := by
    constructor
    · intro hg y
      rw [← he]; simp [Adjacency.row, hg, Assoc.get]
    · intro hy
      cases hg : Assoc.get a.edges x with
      | none => rfl
      | some row =>
        have hr : a.row x = row := by simp [Adjacency.row, hg]
        cases row with
        | nil => exact absurd hg (h2 x)
        | cons kv row =>
          have := hy kv.1
          rw [← he, hr] at this
          simp [Assoc.get] at this
  have hrun : ∀ b : Adjacency M, run b (ops ++ [.pop x]) = ((run b ops).pop x).2 := by
    intro b
    exact run_append ops [.pop x] b
  refine ⟨?_, ⟨(a.row x).map Prod.fst, hrow, ?_, ?_, ?_⟩, ?_, ?_, ?_, ?_, ?_⟩
  · simp only [Adjacency.containsNode]
    cases hg : Assoc.get a.edges x with
    | none => simp [hne.1 hg]
    | some row =>
      simp only [Option.isSome_some, true_iff]
      apply Classical.byContradiction
      intro hno
      have : Assoc.get a.edges x = none := hne.2 fun y => by
        cases hy : e y with
        | none => rfl
        | some v => exact absurd ⟨y, by rw [hy]; rfl⟩ hno
      rw [hg] at this
      simp at this
  · intro y; rw [← Assoc.get_isSome, he]
  · simp only [Adjacency.numEdges, Adjacency.row]
    cases Assoc.get a.edges x <;> simp
  · rw [popNodes_eq]
  · intro f; simp only [Adjacency.filterNodes, Option.map_eq_none_iff, hne]
  · intro f ys hf
    simp only [Adjacency.filterNodes, Option.map_eq_some_iff] at hf
    obtain ⟨row, hg, rfl⟩ := hf
    have hr : a.row x = row := by simp [Adjacency.row, hg]
    rw [hr] at hrow he
    refine ⟨List.Nodup.sublist (List.Sublist.map _ List.filter_sublist) hrow, fun y => ?_⟩
    simp only [List.mem_map, List.mem_filter]
    constructor
    · rintro ⟨⟨k, v⟩, ⟨hm, hp⟩, rfl⟩
      exact ⟨v, by rw [← he, Assoc.get_iff hrow]; exact hm, hp⟩
    · rintro ⟨md, hm, hp⟩
      rw [← he, Assoc.get_iff hrow] at hm
      exact ⟨(y, md), ⟨hm, hp⟩, rfl⟩
  · refine ⟨(a.row x).filterMap fun kv => kv.2.map fun m => (kv.1, m), ?_, ?_, ?_⟩
    · refine List.Nodup.sublist ?_ hrow
      clear he hrow
      induction a.row x with
      | nil => simp
      | cons kv r ih =>
        obtain ⟨k, v⟩ := kv
        cases v with
        | none => exact List.Sublist.cons _ ih
        | some v => exact List.Sublist.cons_cons _ ih
    · rw [popMetadata_eq]
      simp only [List.map_filterMap]
      congr 1
      funext kv
      obtain ⟨k, v⟩ := kv
      cases v <;> rfl
    · intro y m
      rw [← he, Assoc.get_iff hrow, List.mem_filterMap]
      constructor
      · rintro ⟨⟨k, v⟩, hm, hk⟩
        cases v with
        | none => simp at hk
        | some v =>
          simp only [Option.map_some, Option.some.injEq, Prod.mk.injEq] at hk
          obtain ⟨rfl, rfl⟩ := hk
          exact hm
      · intro hm; exact ⟨_, hm, rfl⟩
  · rw [popNodes_eq, hrun]
  · rw [popMetadata_eq, hrun]

/-- After adding edges between `a` and `b`, `c`, overwriting one and popping `b`, three edges are
left, one of them with metadata. -/
example :
    let ops : List (Op Nat) := [.addBoth ['a'] [['b'], ['c']] none, .add ['a'] ['c'] (some 7), .pop ['b']]
    (edge ops.reverse ['a'] ['b'], edge ops.reverse ['a'] ['c'], edge ops.reverse ['b'] ['a'],
      edge ops.reverse ['c'] ['a']) = (some none, some (some 7), none, some none) := by decide

/-! ## C57 -/

/-- What start-up gives every node, whatever the configuration.  A filter that forwards to a node
does not count that node as upstream, even if the node forwards to it. -/
theorem C57_mutual (c : Config) (hd : Distinct c) (w : Wiring) (hw : wire c = .ok w) :
    w.sinks.map (·.1) = c.sinks ∧ w.filters.map (·.1) = c.filters.map (·.1) ∧
    w.sources.map (·.1) = (c.natives ++ c.sources).map (·.1) ∧
    (∀ s ups, (s, ups) ∈ w.sinks → ups.Nodup ∧ ∀ n, n ∈ ups ↔ Forwards c n s) ∧
    (∀ f ups downs, (f, ups, downs) ∈ w.filters →
      (ups.Nodup ∧ ∀ n, n ∈ ups ↔ Forwards c n f ∧ ¬ Forwards c f n) ∧
      (downs.Nodup ∧ ∀ d, d ∈ downs ↔ Forwards c f d)) ∧
    (∀ s downs, (s, downs) ∈ w.sources → downs.Nodup ∧ ∀ d, d ∈ downs ↔ Forwards c s d) ∧
    (w.flush.Nodup ∧
      ∀ d, d ∈ w.flush ↔ ∃ s ∈ (c.natives ++ c.sources).map (·.1), Forwards c s d) := by
  obtain ⟨h1, h2, h3, h4, h5, h6, h7⟩ := wire_ok c hd w hw
  refine ⟨by rw [h1]; simp [Function.comp_def], h2, h3, ?_, ?_, ?_, h6, ?_⟩
  · intro s ups hm
    rw [h1] at hm
    obtain ⟨s', hs, he⟩ := List.mem_map.1 hm
    simp only [Prod.mk.injEq] at he
    obtain ⟨rfl, rfl⟩ := he
    refine ⟨(matrix_ok c).row s', fun n => ?_⟩
    rw [mem_row_iff (matrix_ok c), matrix_edge]
    constructor
    · rintro (h | h)
      · exact absurd h (sink_no_forwards hd hs n)
      · exact h
    · exact Or.inr
  · intro f ups downs hm
    obtain ⟨fwds, hf, hok⟩ := h4 f ups downs hm
    have hfw := forwards_iff hd (n := f) (fs := fwds) (by simp [hf])
    refine ⟨⟨hok.upsNodup, fun n => ?_⟩, hok.downsNodup, fun d => by rw [hok.downsMem, hfw]⟩
    rw [hok.upsMem, matrix_edge, ← hfw]
    constructor
    · rintro ⟨h | h, hn⟩
      · exact absurd h hn
      · exact ⟨h, hn⟩
    · rintro ⟨h, hn⟩; exact ⟨Or.inr h, hn⟩
  · intro s downs hm
    obtain ⟨hn, fwds, hs, hds⟩ := h5 s downs hm
    refine ⟨hn, fun d => ?_⟩
    rw [hds, forwards_iff hd (n := s) (fs := fwds)]
    rw [List.append_assoc]; exact List.mem_append_right _ hs
  · intro d
    rw [h7]
    constructor
    · rintro ⟨s, fwds, hm, hdm⟩
      exact ⟨s, List.mem_map.2 ⟨_, hm, rfl⟩, fwds,
        by rw [List.append_assoc]; exact List.mem_append_right _ hm, hdm⟩
    · rintro ⟨s, hs, hf⟩
      obtain ⟨⟨s', fwds⟩, hm, rfl⟩ := List.mem_map.1 hs
      refine ⟨s', fwds, hm, (forwards_iff hd (n := s') (fs := fwds) ?_ d).1 hf⟩
      rw [List.append_assoc]; exact List.mem_append_right _ hm

/-- **C57.**  Unless nodes forward to each other, every node that is started counts as upstream
exactly the nodes that list it among their forwards, once each, and holds the channels of exactly
its own forwards, once each; the flush timer holds the channels of exactly the nodes that some
source forwards to. -/
theorem C57_wiring (c : Config) (hd : Distinct c) (w : Wiring) (hw : wire c = .ok w)
    (hm : ∀ m n, Forwards c m n → ¬ Forwards c n m) :
    w.sinks.map (·.1) = c.sinks ∧ w.filters.map (·.1) = c.filters.map (·.1) ∧
    w.sources.map (·.1) = (c.natives ++ c.sources).map (·.1) ∧
    (∀ s ups, (s, ups) ∈ w.sinks → ups.Nodup ∧ ∀ n, n ∈ ups ↔ Forwards c n s) ∧
    (∀ f ups downs, (f, ups, downs) ∈ w.filters →
      (ups.Nodup ∧ ∀ n, n ∈ ups ↔ Forwards c n f) ∧
      (downs.Nodup ∧ ∀ d, d ∈ downs ↔ Forwards c f d)) ∧
    (∀ s downs, (s, downs) ∈ w.sources → downs.Nodup ∧ ∀ d, d ∈ downs ↔ Forwards c s d) ∧
    (w.flush.Nodup ∧
      ∀ d, d ∈ w.flush ↔ ∃ s ∈ (c.natives ++ c.sources).map (·.1), Forwards c s d) := by
  obtain ⟨h1, h2, h3, h4, h5, h6⟩ := C57_mutual c hd w hw
  refine ⟨h1, h2, h3, h4, fun f ups downs hmem => ?_, h6⟩
  obtain ⟨⟨i1, i2⟩, i3⟩ := h5 f ups downs hmem
  exact ⟨⟨i1, fun n => by rw [i2]; exact ⟨And.left, fun h => ⟨h, hm n f h⟩⟩⟩, i3⟩

/-- A pipeline of two sources, a filter and two sinks. -/
private def pipeline : Config where
  sinks := [['k'], ['l']]
  filters := [(['f'], [['k'], ['l']])]
  natives := [(['n'], [['f']])]
  sources := [(['s'], [['f'], ['k'], ['f']])]

example : Distinct pipeline := by decide

/-- Its wiring. -/
example : wire pipeline = .ok
    { sinks := [(['k'], [['f'], ['s']]), (['l'], [['f']])]
      filters := [(['f'], [['n'], ['s']], [['k'], ['l']])]
      sources := [(['n'], [['f']]), (['s'], [['f'], ['k']])]
      flush := [['f'], ['k']] } := by rfl

example : ∀ m n, Forwards pipeline m n → ¬ Forwards pipeline n m := by
  rintro m n ⟨fs, h1, h2⟩ ⟨fs', h3, h4⟩
  simp only [pipeline, List.cons_append, List.nil_append, List.mem_cons, Prod.mk.injEq,
    List.not_mem_nil, or_false] at h1 h3
  rcases h1 with ⟨rfl, rfl⟩ | ⟨rfl, rfl⟩ | ⟨rfl, rfl⟩ <;>
    rcases h3 with ⟨rfl, rfl⟩ | ⟨rfl, rfl⟩ | ⟨rfl, rfl⟩ <;> revert h2 h4 <;> decide

/-! ## C58 -/

/-- **C58, partial.**  Start-up succeeds exactly if every forward names a sink or a filter, and every
filter that forwards to nothing is forwarded to.  Missing: filters without any neighbour, on which
start-up panics. -/
theorem C58_starts_partial (c : Config) (hd : Distinct c) :
    (∃ w, wire c = .ok w) ↔
      (∀ n x, Forwards c n x → HasChannel c x) ∧ ∀ f, (f, []) ∈ c.filters → ∃ n, Forwards c n f := by
  have key : ((∀ n x, Forwards c n x → HasChannel c x) ∧
      ∀ f, (f, []) ∈ c.filters → ∃ n, Forwards c n f) ↔ ∀ n, ¬ (NodeBad c n ∨ Isolated c n) := by
    constructor
    · rintro ⟨h1, h2⟩ n (⟨x, hx, hc⟩ | ⟨hf, hn⟩)
      · exact hc (h1 n x hx)
      · obtain ⟨m, hm⟩ := h2 n hf
        exact hn m hm
    · intro h
      refine ⟨fun n x hx => ?_, fun f hf => ?_⟩
      · apply Classical.byContradiction
        exact fun hc => h n (Or.inl ⟨x, hx, hc⟩)
      · apply Classical.byContradiction
        exact fun hc => h f (Or.inr ⟨hf, fun n hn => hc ⟨n, hn⟩⟩)
  rw [key]
  rcases wire_error c hd with ⟨h1, h2⟩ | ⟨e, h1, h2, -⟩
  · exact ⟨fun _ => h2, fun _ => h1⟩
  · constructor
    · rintro ⟨w, hw⟩; rw [h1] at hw; simp at hw
    · intro h; obtain ⟨n, hn⟩ := h2; exact absurd hn (h n)

/-- **C58.**  If a node forwards to a name that is neither a sink nor a filter, start-up stops and
that node is not running by then. -/
theorem C58_refused (c : Config) (hd : Distinct c) (n x : Str) (hf : Forwards c n x)
    (hx : ¬ HasChannel c x) : ∃ e, wire c = .error e ∧ n ∉ e.started := by
  have hb : NodeBad c n ∨ Isolated c n := Or.inl ⟨x, hf, hx⟩
  rcases wire_error c hd with ⟨-, h2⟩ | ⟨e, h1, -, h3⟩
  · exact absurd hb (h2 n)
  · exact ⟨e, h1, h3 n hb⟩

/-- **C58.**  If a filter, or a source other than a native one, forwards to a name that is no node at
all, start-up stops with exit status 1 before anything runs. -/
theorem C58_unknown (c : Config) (hd : Distinct c) (n x : Str) (fs : List Str)
    (hn : (n, fs) ∈ c.filters ++ c.sources) (hx : x ∈ fs) (hc : ¬ HasChannel c x)
    (hs : ∀ fs, (x, fs) ∉ c.sources) : wire c = .error ⟨.exit 1, []⟩ := by
  have hv : ¬ validate c = true := by
    rw [validate_iff c hd]
    intro h
    rcases h n fs hn x hx with h | ⟨fs', h⟩
    · exact hc h
    · exact hs fs' h
  simp only [wire, if_neg hv]

/-- C58 does not hold in full: a configuration without a single bad forward can still fail to start.
A filter with no forwards that nothing forwards to makes start-up panic. -/
theorem C58_isolated_false : ∃ c : Config, Distinct c ∧ (∀ n x, Forwards c n x → HasChannel c x) ∧
    wire c = .error ⟨.panic, c.sinks⟩ := by
  refine ⟨⟨[['k']], [(['f'], [])], [], [(['s'], [['k']])]⟩, by decide, ?_, by rfl⟩
  rintro n x ⟨fs, hm, hx⟩
  simp only [List.append_nil, List.cons_append, List.nil_append, List.mem_cons, Prod.mk.injEq,
    List.not_mem_nil, or_false] at hm
  rcases hm with ⟨rfl, rfl⟩ | ⟨rfl, rfl⟩
  · simp at hx
  · exact Or.inl hx

/-- Nor are all bad forwards found by the validation: forwards of native sources, and forwards to
sources, only stop start-up when sinks and filters are running, and with exit status 0. -/
theorem C58_status_false : ∃ c d : Config, Distinct c ∧ Distinct d ∧
    Forwards c ['n'] ['?'] ∧ ¬ HasChannel c ['?'] ∧ wire c = .error ⟨.exit 0, c.sinks⟩ ∧
    Forwards d ['s'] ['t'] ∧ ¬ HasChannel d ['t'] ∧ wire d = .error ⟨.exit 0, d.sinks⟩ := by
  refine ⟨⟨[['k']], [], [(['n'], [['?']])], []⟩, ⟨[['k']], [], [], [(['s'], [['t']]), (['t'], [])]⟩,
    by decide, by decide, ⟨[['?']], by simp, by simp⟩, by simp [HasChannel], by rfl,
    ⟨[['t']], by simp, by simp⟩, by simp [HasChannel], by rfl⟩

/-- The hypotheses of `C58_unknown` are met by a source that forwards to a misspelt sink. -/
example : wire ⟨[['k']], [], [], [(['s'], [['K']])]⟩ = .error ⟨.exit 1, []⟩ :=
  C58_unknown _ (by decide) ['s'] ['K'] [['K']] (by simp) (by simp) (by simp [HasChannel]) (by simp)

end Verif
