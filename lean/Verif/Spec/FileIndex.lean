import Verif.Spec.ElasticIndex
/-!
# What a user looks up in the index (for C141)
-/
namespace Verif
namespace Elastic

/-- Neither the tags of a line (its own and those of the sink) nor its fields are called like the key. -/
def Unshadowed (tags : TagMap) (l : LogLine) (key : Str) : Prop := getFromTags l.tags key tags = none ∧ l.fields.get key = none

/-- The documents whose `path` is that of a file, by their `payload`. -/
def payloadsOf (p : Str) (store : List Doc) : List (Option Str) :=
  (store.filter fun d => d.body.get "path".toList = some p).map fun d => d.body.get "payload".toList

end Elastic
end Verif
