import Verif.Model.Oneof

/-!
# The query of a client's request, with the query of the instance

NAME.pb.baron.go.tmpl (TB) 509-519: the client parses the instance once, without complaining about a query; TB:551-555
`copyURL` keeps it; TB:635 the encoder of every call starts from it.
-/

namespace Baron.HTTPCode

/-- TB:634-690 `values := r.URL.Query()` … `r.URL.RawQuery = values.Encode()`: like `encodeFull`, but starting from the
query `q0` of the instance. -/
def encodeFrom {F : Type} (fl : Floats F) (fzero : F → Bool) (q0 : List (Str × List Str)) (fs : List HField) (os : List HOneof)
    (m : FullMsg F) : List (Str × List Str) :=
  (os.filter fun o => o.location = "query".toList).foldl
    (fun q o => o.options.foldl (encodeOption fl fzero (m.oneofs (Strs.goCamelCase o.name))) q)
    ((fs.filter fun f => f.location = "query".toList).foldl (fun q f => encodeField fl f (m.fields f.camelName) q) q0)

theorem encodeFrom_nil {F : Type} (fl : Floats F) (fzero : F → Bool) (fs : List HField) (os : List HOneof) (m : FullMsg F) :
    encodeFrom fl fzero [] fs os m = encodeFull fl fzero fs os m := rfl

end Baron.HTTPCode
