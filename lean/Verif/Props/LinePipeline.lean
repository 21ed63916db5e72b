import Verif.Spec.LinePipeline
import Verif.Props.Files
import Verif.Props.JsonFilter
import Verif.Props.KafkaKeys
/-!
# C137: lines of a watched file become Kafka messages
-/
namespace Verif
open JsonFilter LinePipeline File
open Native (Each)
section
variable {F : Type} [F64 F]

private theorem lineSent_tells {num : Str → Option Str} {parseLine : Bool} {tags : TagMap} {l : LogLine} {r : RawEvent}
    (h : LineSent num parseLine tags l (.raw r : Event F)) : TellsLine num parseLine l r.bytes := by
  obtain ⟨obj, r', text, time, h1, -, h2, ⟨n, h3⟩, h4, -, h5⟩ := h
  simp only [Event.raw.injEq] at h1
  subst h1
  refine ⟨obj, text, n, h2, h3, h4, ?_⟩
  split
  · next o ho =>
    intro k v hk
    rw [h5 k, ho]
    simp [hk]
  · next ho =>
    have h5m := h5 "message".toList
    have h5p := h5 "path".toList
    split at h5m
    · next o ho' => exact absurd ho' (ho o)
    · split at h5p
      · next o ho' => exact absurd ho' (ho o)
      · exact ⟨by rw [h5m]; rfl, fun hf => by rw [h5p, hf]; rfl⟩

/-- What the filter sends of the lines and raw events it has read is raw, in order. -/
theorem LinePipeline.raws_of (num : Str → Option Str) (parseLine : Bool) (tags : TagMap) (topic : Str) (key : Nat → Bytes) :
    ∀ {events out : List (Event F)}, Each (Sent num parseLine tags) events out →
    ∀ {subs : List Submission}, Each (Kafka.IsMessage topic key) (rawsIn out) subs → Each (Becomes num parseLine topic) (events.filter forKafka) subs := by
  intro events out h
  induction h with
  | nil => intro subs hs; cases hs; exact .nil
  | @cons a b as bs hab _ ih =>
    intro subs hs
    cases a with
    | log l =>
      have hab : LineSent num parseLine tags l b := hab
      obtain ⟨-, r, -, -, hr, -⟩ := id hab
      subst hr
      simp only [rawsIn, List.filterMap_cons] at hs
      cases hs with
      | cons h1 h2 => exact .cons ⟨h1.topic, by rw [h1.payload]; exact lineSent_tells hab⟩ (ih h2)
    | raw r =>
      have hab : b = .raw r := hab
      subst hab
      simp only [rawsIn, List.filterMap_cons] at hs
      cases hs with
      | cons h1 h2 => exact .cons ⟨h1.topic, h1.payload⟩ (ih h2)
    | telemetry t =>
      have hab : b = .telemetry t := hab
      subst hab
      exact ih hs
    | timerFlush n =>
      have hab : b = .timerFlush n := hab
      subst hab
      exact ih hs
    | shutdown =>
      have hab : b = .shutdown := hab
      subst hab
      exact ih hs

private theorem linesIn_forKafka (es : List (Event F)) : linesIn (es.filter forKafka) = linesIn es := by
  induction es with
  | nil => rfl
  | cons e es ih => cases e <;> simp only [List.filter_cons, forKafka, if_true, Bool.false_eq_true, if_false, linesIn, List.filterMap_cons] at ih ⊢ <;> simp [ih]

/-- The lines of the file that the filter has read are those appended. -/
theorem LinePipeline.lines_reach (max : Nat) (p : Str) (i : Nat) (content : Text) (before : List (FS × List Str)) (first : FS × List Str)
    (hb : ∀ x ∈ before, p ∉ x.2) (hf : p ∈ first.2) (hs : Sees p i content first)
    (later : List ((FS × List Str) × List Text)) (hg : Grows p i content later) (quiet : List (FS × List Str))
    (hq : ∀ x ∈ quiet, Sees p i (content ++ joinLines (later.flatMap (·.2))) x) (hlen : (later.flatMap (·.2)).length ≤ quiet.length)
    {recv consumed rest unread : List (Option (Int × Event F))}
    (hc : ((linesIn (recv.filterMap fun i => i.map Prod.snd)).filter fun l => l.path = p).map (·.value) =
      ((Server.mk max [] 1 []).passes (before ++ first :: later.map (·.1) ++ quiet)).sentOf p)
    (e1 : recv = consumed ++ rest) (e2 : rest = unread) (hread : ∀ now l, some (now, .log l) ∈ unread → l.path ≠ p) :
    ((linesIn ((consumed.filterMap fun i => i.map Prod.snd).filter forKafka)).filter fun l => l.path = p).map (·.value) =
      (later.flatMap (·.2)).filter (· ≠ []) := by
  have hnone : (linesIn (rest.filterMap fun i => i.map Prod.snd)).filter (fun l => l.path = p) = [] := by
    rw [List.filter_eq_nil_iff]
    intro l hl
    simp only [linesIn, List.mem_filterMap] at hl
    obtain ⟨e, ⟨x, hx, hxe⟩, he⟩ := hl
    cases e <;> simp at he
    subst he
    cases x with
    | none => simp at hxe
    | some x =>
      obtain ⟨now, ev⟩ := x
      simp only [Option.map_some, Option.some.injEq] at hxe
      subst hxe
      rw [e2] at hx
      simpa using hread now _ hx
  have hlines : (linesIn (recv.filterMap fun i => i.map Prod.snd)).filter (fun l => l.path = p) =
      (linesIn (consumed.filterMap fun i => i.map Prod.snd)).filter (fun l => l.path = p) := by
    rw [e1, List.filterMap_append]
    simp only [linesIn, List.filterMap_append, List.filter_append] at hnone ⊢
    rw [hnone, List.append_nil]
  obtain ⟨m, -, -, hall⟩ := C122_each_file max p i content before first hb hf hs later hg
  rw [linesIn_forKafka, ← hlines, hc]
  have := hall quiet hq (by omega)
  rw [← this]
  simp [Server.passes]

/-- **C137** (the filter and the sink) Whatever arrives at a JSON-encoding filter whose output goes to a Kafka sink: with a broker that hands back
what was submitted, the messages first submitted are one for each line and each raw event that the filter has read, in order; a line's
tells it.  Nothing else is ever submitted than these and repetitions of them. -/
theorem C137_encoded (num : Str → Option Str) (hnum : ∀ t u, num t = some u → Json.IsNumber u) (sources : Nat) (s : JsonEncode)
    (recv : List (Option (Int × Event F))) (utf8 : Bytes → Bool) (topic : Str) (maxBytes : Nat)
    (script : List (Submission → KOutcome)) (hsc : ∀ f ∈ script, ∀ x, Kafka.Faithful x (f x)) (ops : List Kafka.Op) (k : Kafka)
    (hops : Kafka.delivered ops = rawsIn (JsonFilter.run num sources { state := s } recv).run.sent)
    (hd : ∀ r ∈ Kafka.delivered ops, DistinctKeys (r.metadata.getD []))
    (h : Kafka.run utf8 { topicName := topic, maxMessageBytes := maxBytes, script := script } ops = some k) :
    ∃ consumed firsts, (∃ rest, recv = consumed ++ rest ∧
        ((JsonFilter.run num sources { state := s } recv).panicked = false → rest = (JsonFilter.run num sources { state := s } recv).unread)) ∧
      Each (Becomes num s.parseLine topic) ((consumed.filterMap fun i => i.map Prod.snd).filter forKafka) firsts ∧
      firsts.Sublist (Kafka.submissions k.trace) ∧ ∀ x ∈ Kafka.submissions k.trace, x ∈ firsts := by
  obtain ⟨consumed, rest, c1, c2, -, c4⟩ := C131_exact num hnum sources s recv
  obtain ⟨key, firsts, -, m1, m2, m3⟩ := C101_messages utf8 topic maxBytes script hsc ops hd k h
  rw [hops] at m1
  exact ⟨consumed, firsts, ⟨rest, c1, fun hp => (c4 hp).1⟩, raws_of num s.parseLine s.tags topic key c2 m1, m2, m3⟩

/-- **C137** Lines are appended to a file that a file source watches, whatever happens to other files.  What the source sends goes, among lines of other
files, points and raw events from anywhere, through a JSON-encoding filter that has read all of it and not panicked, to a Kafka sink with
a broker that hands back what was submitted.  The messages first submitted are one per line and raw event, in order; each tells its line; and
the lines of the file among them are those that were appended, but the blank ones, in order and once each. -/
theorem C137_file_to_kafka (max : Nat) (p : Str) (i : Nat) (content : Text) (before : List (FS × List Str)) (first : FS × List Str)
    (hb : ∀ x ∈ before, p ∉ x.2) (hf : p ∈ first.2) (hs : Sees p i content first)
    (later : List ((FS × List Str) × List Text)) (hg : Grows p i content later) (quiet : List (FS × List Str))
    (hq : ∀ x ∈ quiet, Sees p i (content ++ joinLines (later.flatMap (·.2))) x) (hlen : (later.flatMap (·.2)).length ≤ quiet.length)
    (num : Str → Option Str) (hnum : ∀ t u, num t = some u → Json.IsNumber u) (sources : Nat) (s : JsonEncode)
    (recv : List (Option (Int × Event F)))
    (hc : ((linesIn (recv.filterMap fun i => i.map Prod.snd)).filter fun l => l.path = p).map (·.value) =
      ((Server.mk max [] 1 []).passes (before ++ first :: later.map (·.1) ++ quiet)).sentOf p)
    (hok : (JsonFilter.run num sources { state := s } recv).panicked = false)
    (hread : ∀ now l, some (now, .log l) ∈ (JsonFilter.run num sources { state := s } recv).unread → l.path ≠ p)
    (utf8 : Bytes → Bool) (topic : Str) (maxBytes : Nat)
    (script : List (Submission → KOutcome)) (hsc : ∀ f ∈ script, ∀ x, Kafka.Faithful x (f x)) (ops : List Kafka.Op) (k : Kafka)
    (hops : Kafka.delivered ops = rawsIn (JsonFilter.run num sources { state := s } recv).run.sent)
    (hd : ∀ r ∈ Kafka.delivered ops, DistinctKeys (r.metadata.getD []))
    (h : Kafka.run utf8 { topicName := topic, maxMessageBytes := maxBytes, script := script } ops = some k) :
    ∃ (events : List (Event F)) (firsts : List Submission), Each (Becomes num s.parseLine topic) events firsts ∧
      ((linesIn events).filter fun l => l.path = p).map (·.value) = (later.flatMap (·.2)).filter (· ≠ []) ∧
      firsts.Sublist (Kafka.submissions k.trace) ∧ ∀ x ∈ Kafka.submissions k.trace, x ∈ firsts := by
  obtain ⟨consumed, firsts, ⟨rest, e1, e2⟩, e3, e4, e5⟩ := C137_encoded num hnum sources s recv utf8 topic maxBytes script hsc ops k hops hd h
  exact ⟨_, firsts, e3, lines_reach max p i content before first hb hf hs later hg quiet hq hlen hc e1 (e2 hok) hread, e4, e5⟩

end

/-! ### A case: two files, blank lines, a point and a raw event on the way; the broker asks for one message again -/
private def pipeFS (a b : Text) : FS := ⟨fun n => if n = 0 then a else b, fun p => if p = ['a'] then some 0 else if p = ['b'] then some 1 else none⟩
private def pipeFirst : FS × List Str := (pipeFS [] "old\n".toList, [['a'], ['b']])
private def pipeLater : List ((FS × List Str) × List Text) := [((pipeFS "x\n".toList "old\n1\n\n2\n".toList, []), [['1'], [], ['2']])]
private def pipeQuiet : List (FS × List Str) := List.replicate 3 (pipeFS "x\n".toList "old\n1\n\n2\n".toList, [])

private def pipeRecv : List (Option (Int × Event Int)) :=
  [some (0, .log (.new 5 ['b'] ['1'])), some (0, .log (.new 5 ['a'] ['x'])), none, some (0, .timerFlush 1),
   some (0, .raw ⟨7, .raw, [1], none, some 3⟩), some (0, .log (.new 6 ['b'] ['2'])), some (0, .shutdown)]

private def noNumbers (_ : Str) : Option Str := none

private def pipeState : JsonEncode := { parseLine := false, tags := [], rand := fun n => n }

private def pipeOps : List Kafka.Op :=
  (rawsIn (JsonFilter.run noNumbers 1 { state := pipeState } pipeRecv).run.sent).flatMap fun r => [.deliver r, .flush]

private def pipeScript : List (Submission → KOutcome) := [fun s => .retryable ⟨some s.payload, some s.key, some s.headers⟩]

/-- Non-vacuity of `C137_file_to_kafka` and `C137_encoded`. -/
example : ['b'] ∈ pipeFirst.2 ∧ Sees ['b'] 1 "old\n".toList pipeFirst ∧ Grows ['b'] 1 "old\n".toList pipeLater ∧
    (∀ x ∈ pipeQuiet, Sees ['b'] 1 ("old\n".toList ++ joinLines (pipeLater.flatMap (·.2))) x) ∧
    ((linesIn (pipeRecv.filterMap fun i => i.map Prod.snd)).filter fun l => l.path = ['b']).map (·.value) =
      ((Server.mk 0 [] 1 []).passes ([] ++ pipeFirst :: pipeLater.map (·.1) ++ pipeQuiet)).sentOf ['b'] ∧
    (JsonFilter.run noNumbers 1 { state := pipeState } pipeRecv).panicked = false ∧
    (JsonFilter.run noNumbers 1 { state := pipeState } pipeRecv).unread = [] ∧
    (∀ f ∈ pipeScript, ∀ x, Kafka.Faithful x (f x)) ∧
    Kafka.delivered pipeOps = rawsIn (JsonFilter.run noNumbers 1 { state := pipeState } pipeRecv).run.sent ∧
    (∀ r ∈ Kafka.delivered pipeOps, r.metadata = none) ∧
    (Kafka.run (fun _ => true) { topicName := ['t'], maxMessageBytes := 9, script := pipeScript } pipeOps).map
      (fun k => (Kafka.submissions k.trace).map (·.payload)) = some
        ["{\"message\":\"1\",\"time\":\"1970-01-01T00:00:05+00:00\",\"path\":\"b\",\"tags\":{}}".toList.flatMap String.utf8EncodeChar,
         "{\"message\":\"1\",\"time\":\"1970-01-01T00:00:05+00:00\",\"path\":\"b\",\"tags\":{}}".toList.flatMap String.utf8EncodeChar,
         "{\"message\":\"x\",\"time\":\"1970-01-01T00:00:05+00:00\",\"path\":\"a\",\"tags\":{}}".toList.flatMap String.utf8EncodeChar,
         [1],
         "{\"message\":\"2\",\"time\":\"1970-01-01T00:00:06+00:00\",\"path\":\"b\",\"tags\":{}}".toList.flatMap String.utf8EncodeChar] := by
  refine ⟨by decide, ⟨by decide, by decide⟩, ?_, ?_, by decide +kernel, by decide +kernel, by decide +kernel, ?_, by decide +kernel,
    by decide +kernel, by decide +kernel⟩
  · simp only [pipeLater, Grows, and_true]
    refine ⟨?_, ⟨by decide, by decide⟩⟩
    intro l hl; revert l; simp
  · intro x hx
    rw [List.eq_of_mem_replicate hx]
    exact ⟨by decide, by decide⟩
  · intro f hf x
    simp only [pipeScript, List.mem_singleton] at hf
    subst hf
    exact ⟨rfl, rfl, rfl⟩

end Verif
