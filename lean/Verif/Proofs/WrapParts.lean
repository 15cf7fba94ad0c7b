import Verif.Proofs.Texts

/-!
# The parts of the template of the baron file that wrap endpoints
-/

namespace Baron.TT

/-- `WrapAllExcept`. -/
def wrapT : Tmpl :=
  .text (chars% "func (e *Endpoints) WrapAllExcept(middleware endpoint.Middleware, excluded ...string) {\n\tincluded := map[string]struct{}{")
  (.range (some (chars% "i")) (.dot [chars% "Service", chars% "Methods"])
    (.text (chars% "\n\t\t\t\"")
    (.action (.var (chars% "i") [chars% "Name"])
    (.text (chars% "\": {},")
    .nil)))
  (.text (chars% "\n\t}\n\n\tfor _, ex := range excluded {\n\t\tif _, ok := included[ex]; !ok {\n\t\t\tpanic(fmt.Sprintf(\"Excluded endpoint '%s' does not exist; see middlewares/endpoints.go\", ex))\n\t\t}\n\t\tdelete(included, ex)\n\t}\n\n\tfor inc := range included {")
  (.range (some (chars% "i")) (.dot [chars% "Service", chars% "Methods"])
    (.text (chars% "\n\t\t\tif inc == \"")
    (.action (.var (chars% "i") [chars% "Name"])
    (.text (chars% "\" {\n\t\t\t\te.")
    (.action (.var (chars% "i") [chars% "Name"])
    (.text (chars% "Endpoint = middleware(e.")
    (.action (.var (chars% "i") [chars% "Name"])
    (.text (chars% "Endpoint)\n\t\t\t}")
    .nil)))))))
  (.text (chars% "\n\t}\n}\n")
  .nil))))

theorem wrapT_eq : (parse baronSrc).map (fun t => t.part 21 319 4 6) = some wrapT := by
  decide +kernel

/-- `WrapAllLabeledExcept`. -/
def wrapLT : Tmpl :=
  .text (chars% "func (e *Endpoints) WrapAllLabeledExcept(middleware func(string, endpoint.Endpoint) endpoint.Endpoint, excluded ...string) {\n\tincluded := map[string]struct{}{")
  (.range (some (chars% "i")) (.dot [chars% "Service", chars% "Methods"])
    (.text (chars% "\n\t\t\t\"")
    (.action (.var (chars% "i") [chars% "Name"])
    (.text (chars% "\": {},")
    .nil)))
  (.text (chars% "\n\t}\n\n\tfor _, ex := range excluded {\n\t\tif _, ok := included[ex]; !ok {\n\t\t\tpanic(fmt.Sprintf(\"Excluded endpoint '%s' does not exist; see middlewares/endpoints.go\", ex))\n\t\t}\n\t\tdelete(included, ex)\n\t}\n\n\tfor inc := range included {")
  (.range (some (chars% "i")) (.dot [chars% "Service", chars% "Methods"])
    (.text (chars% "\n\t\t\tif inc == \"")
    (.action (.var (chars% "i") [chars% "Name"])
    (.text (chars% "\" {\n\t\t\t\te.")
    (.action (.var (chars% "i") [chars% "Name"])
    (.text (chars% "Endpoint = middleware(\"")
    (.action (.var (chars% "i") [chars% "Name"])
    (.text (chars% "\", e.")
    (.action (.var (chars% "i") [chars% "Name"])
    (.text (chars% "Endpoint)\n\t\t\t}")
    .nil)))))))))
  (.text (chars% "\n\t}\n}\n")
  .nil))))

theorem wrapLT_eq : (parse baronSrc).map (fun t => t.part 25 528 4 6) = some wrapLT := by
  decide +kernel

end Baron.TT
