/-
The description of the sample plugin for Source 2 (C112): `configurePluginMetadata` of samples/s2_sample_mm/AMBuildScript.

Simplified: the file is the dictionary in it; `json.load` gives back what `json.dump` wrote (external). Files that cannot be read are not modelled.
-/
namespace Verif.Metadata

/-- A dictionary of Python: pairs in the order in which the keys were first set. No counterpart in /repo: the language. -/
abbrev Dict := List (String × String)

/-- The keys. No counterpart in /repo: Python. -/
def keys (d : Dict) : List String := d.map Prod.fst

/-- `d[k]`. No counterpart in /repo: Python, as at samples/s2_sample_mm/AMBuildScript:207-214. -/
def get (d : Dict) (k : String) : Option String := d.lookup k

/-- `d[k] = v`: a key that is there keeps its place. No counterpart in /repo: Python. -/
def put (k v : String) : Dict → Dict
  | [] => [(k, v)]
  | (a, b) :: d => if a = k then (a, v) :: d else (a, b) :: put k v d

/-- `d.update(obj)`. No counterpart in /repo: Python, called at samples/s2_sample_mm/AMBuildScript:306. -/
def update : Dict → Dict → Dict
  | d, [] => d
  | d, (k, v) :: obj => update (put k v d) obj

/-- `configurePluginMetadata` without the headers: the metadata and the file afterwards, and whether it was written; `none`: no file.
samples/s2_sample_mm/AMBuildScript:296-311. -/
def configure (metadata : Dict) : Option Dict → Dict × Dict × Bool
  | none => (metadata, metadata, true)
  | some obj =>
    if obj.length < (update metadata obj).length then (update metadata obj, update metadata obj, true)
    else (update metadata obj, obj, false)

end Verif.Metadata
