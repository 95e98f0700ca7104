import Verif.Spec.GoSource
import Verif.Model.CodegenText
/-! Lemmas for C91: the rendered templates, and their tokens. -/
namespace Verif
open Vectors

/-! ## The templates, parsed -/

theorem marshalTemplate_parsed : parseTemplate marshalTemplate = some (.text (txt! "\nfunc (v ") (.show (.field (txt! "StructName")) (.text (txt! ") MarshalABI(e *abi.Encoder) error {\n\tvar err error") (.cond (.field (txt! "UsesExists")) (.text (txt! "\n\tvar exists bool") .done) .done (.text [] (.cond (.field (txt! "UsesLength")) (.text (txt! "\n\tvar length int") .done) .done (.text [] (.range (.field (txt! "Fields")) (.text [] (.show (.field (txt! "Code")) (.text [] .done))) (.text (txt! "\n\treturn err\n}\n") .done))))))))) := by decide +kernel
theorem unmarshalTemplate_parsed : parseTemplate unmarshalTemplate = some (.text (txt! "\nfunc (v *") (.show (.field (txt! "StructName")) (.text (txt! ") UnmarshalABI(d *abi.Decoder) error {\n\tvar err error") (.cond (.field (txt! "UsesExists")) (.text (txt! "\n\tvar exists bool") .done) .done (.text [] (.cond (.field (txt! "UsesLength")) (.text (txt! "\n\tvar length uint") .done) .done (.text [] (.range (.field (txt! "Fields")) (.text [] (.show (.field (txt! "Code")) (.text [] .done))) (.text (txt! "\n\treturn err\n}\n") .done))))))))) := by decide +kernel
theorem writeTemplate_parsed : parseTemplate writeTemplate = some (.text (txt! "\n\tif err = e.Write") (.show (.field (txt! "Method")) (.text (txt! "(") (.cond (.field (txt! "IsPtr")) (.text (txt! "(*") .done) .done (.text (txt! "v.") (.show (.field (txt! "Name")) (.text [] (.cond (.field (txt! "IsPtr")) (.text (txt! ")") .done) .done (.text [] (.cond (.or (.field (txt! "IsSlice")) (.field (txt! "IsArray"))) (.text (txt! "[i]") .done) .done (.text (txt! "); err != nil {\n\t\treturn err\n\t}") .done))))))))))) := by decide +kernel
theorem readTemplate_parsed : parseTemplate readTemplate = some (.text (txt! "\n\t") (.cond (.field (txt! "IsPtr")) (.text (txt! "var tmp ") (.show (.field (txt! "Type")) (.text (txt! "\n\t") .done))) .done (.text (txt! "if ") (.cond (.field (txt! "IsPtr")) (.text (txt! "tmp") .done) (.text (txt! "v.") (.show (.field (txt! "Name")) (.text [] (.cond (.or (.field (txt! "IsSlice")) (.field (txt! "IsArray"))) (.text (txt! "[i]") .done) .done (.text [] .done))))) (.text (txt! ", err = d.Read") (.show (.field (txt! "Method")) (.text (txt! "(); err != nil {\n\t\treturn err\n\t}") (.cond (.field (txt! "IsPtr")) (.text (txt! "\n\tv.") (.show (.field (txt! "Name")) (.text [] (.cond (.or (.field (txt! "IsSlice")) (.field (txt! "IsArray"))) (.text (txt! "[i]") .done) .done (.text (txt! " = &tmp") .done))))) .done (.text [] .done))))))))) := by decide +kernel
theorem writeOtherTemplate_parsed : parseTemplate writeOtherTemplate = some (.text (txt! "\n\tif err = ") (.cond (.and (.field (txt! "IsPtr")) (.or (.field (txt! "IsSlice")) (.field (txt! "IsArray")))) (.text (txt! "(*") .done) .done (.text (txt! "v.") (.show (.field (txt! "Name")) (.text [] (.cond (.and (.field (txt! "IsPtr")) (.or (.field (txt! "IsSlice")) (.field (txt! "IsArray")))) (.text (txt! ")") .done) .done (.text [] (.cond (.or (.field (txt! "IsSlice")) (.field (txt! "IsArray"))) (.text (txt! "[i]") .done) .done (.text (txt! ".MarshalABI(e); err != nil {\n\t\treturn err\n\t}") .done))))))))) := by decide +kernel
theorem readOtherTemplate_parsed : parseTemplate readOtherTemplate = some (.text (txt! "\n\tif err = ") (.cond (.and (.field (txt! "IsPtr")) (.or (.field (txt! "IsSlice")) (.field (txt! "IsArray")))) (.text (txt! "(*") .done) .done (.text (txt! "v.") (.show (.field (txt! "Name")) (.text [] (.cond (.and (.field (txt! "IsPtr")) (.or (.field (txt! "IsSlice")) (.field (txt! "IsArray")))) (.text (txt! ")") .done) .done (.text [] (.cond (.or (.field (txt! "IsSlice")) (.field (txt! "IsArray"))) (.text (txt! "[i]") .done) .done (.text (txt! ".UnmarshalABI(d); err != nil {\n\t\treturn err\n\t}") .done))))))))) := by decide +kernel
theorem writeSliceTemplate_parsed : parseTemplate writeSliceTemplate = some (.text (txt! "\n\tlength = len(") (.cond (.field (txt! "IsPtr")) (.text (txt! "*") .done) .done (.text (txt! "v.") (.show (.field (txt! "Name")) (.text (txt! ")\n    if err = e.WriteVaruint(uint(length)); err != nil {\n\t\treturn err\n\t}\n\tfor i := 0; i < length; i++ {") (.show (.field (txt! "Code")) (.text (txt! "\n\t}") .done))))))) := by decide +kernel
theorem readSliceTemplate_parsed : parseTemplate readSliceTemplate = some (.text (txt! "\n\tif length, err = d.ReadVaruint(); err != nil {\n\t\treturn err\n\t}\n\tv.") (.show (.field (txt! "Name")) (.text (txt! " = make([]") (.show (.field (txt! "Type")) (.text (txt! ", length)\n\tfor i := 0; i < int(length); i++ {") (.show (.field (txt! "Code")) (.text (txt! "\n\t}") .done))))))) := by decide +kernel
theorem writeArrayTemplate_parsed : parseTemplate writeArrayTemplate = some (.text (txt! "\n\tfor i := 0; i < ") (.show (.field (txt! "ArrayLen")) (.text (txt! "; i++ {") (.show (.field (txt! "Code")) (.text (txt! "\n\t}") .done))))) := by decide +kernel
theorem readArrayTemplate_parsed : parseTemplate readArrayTemplate = some (.text (txt! "\n\tfor i := 0; i < ") (.show (.field (txt! "ArrayLen")) (.text (txt! "; i++ {") (.show (.field (txt! "Code")) (.text (txt! "\n\t}") .done))))) := by decide +kernel
theorem writeOptionalTemplate_parsed : parseTemplate writeOptionalTemplate = some (.text (txt! "\n\texists = v.") (.show (.field (txt! "Name")) (.text (txt! " != nil") (.cond (.field (txt! "IsOptional")) (.text (txt! "\n\tif err = e.WriteBool(exists); err != nil {\n\t\treturn err\n\t}") .done) .done (.text (txt! "\n\tif exists {") (.show (.field (txt! "Code")) (.text (txt! "\n\t}") (.cond (.not (.field (txt! "IsOptional"))) (.text (txt! " else {\n\t\treturn errors.New(\"encountered nil for non-optional field: ") (.show (.field (txt! "Name")) (.text (txt! "\")\n\t}") .done))) .done (.text [] .done))))))))) := by decide +kernel
theorem readOptionalTemplate_parsed : parseTemplate readOptionalTemplate = some (.text (txt! "\n\tif exists, err = d.ReadBool(); err != nil {\n\t\treturn err\n\t}\n\tif exists {") (.show (.field (txt! "Code")) (.text (txt! "\n\t}") .done))) := by decide +kernel

/-! ## The templates, rendered -/

theorem dot_name (n : Bytes) (f : CgField) (c : Bytes) : (f.dot n c).lookup (txt! "Name") = some (.str n) := rfl
theorem dot_type (n : Bytes) (f : CgField) (c : Bytes) : (f.dot n c).lookup (txt! "Type") = some (.str f.type) := rfl
theorem dot_isPtr (n : Bytes) (f : CgField) (c : Bytes) : (f.dot n c).lookup (txt! "IsPtr") = some (.bool f.isPtr) := rfl
theorem dot_isOptional (n : Bytes) (f : CgField) (c : Bytes) : (f.dot n c).lookup (txt! "IsOptional") = some (.bool f.isOptional) := rfl
theorem dot_isSlice (n : Bytes) (f : CgField) (c : Bytes) : (f.dot n c).lookup (txt! "IsSlice") = some (.bool f.isSlice) := rfl
theorem dot_isArray (n : Bytes) (f : CgField) (c : Bytes) : (f.dot n c).lookup (txt! "IsArray") = some (.bool f.isArray) := rfl
theorem dot_arrayLen (n : Bytes) (f : CgField) (c : Bytes) : (f.dot n c).lookup (txt! "ArrayLen") = some (.int f.arrayLen) := rfl
theorem dot_code (n : Bytes) (f : CgField) (c : Bytes) : (f.dot n c).lookup (txt! "Code") = some (.str c) := rfl
theorem dot_method (n : Bytes) (f : CgField) (c : Bytes) : (f.dot n c).lookup (txt! "Method") = some (.str (methodName (methodOf f.type))) := rfl
theorem ctx_structName (s : Bytes) (d : FnDecls) (l : List (Bytes × CgField × Bytes)) : (ctxDot s d l).lookup (txt! "StructName") = some (.str s) := rfl
theorem ctx_usesExists (s : Bytes) (d : FnDecls) (l : List (Bytes × CgField × Bytes)) : (ctxDot s d l).lookup (txt! "UsesExists") = some (.bool d.usesExists) := rfl
theorem ctx_usesLength (s : Bytes) (d : FnDecls) (l : List (Bytes × CgField × Bytes)) : (ctxDot s d l).lookup (txt! "UsesLength") = some (.bool d.usesLength) := rfl
theorem ctx_fields (s : Bytes) (d : FnDecls) (l : List (Bytes × CgField × Bytes)) : (ctxDot s d l).lookup (txt! "Fields") = some (.list (l.map fun f => f.2.1.dot f.1 f.2.2)) := rfl

/-- A condition on flags -/
theorem bind_if {α β : Type} (b : Bool) (x y : α) (k : α → Option β) : ((if b = true then some x else some y) >>= k) = k (if b = true then x else y) := by cases b <;> rfl

theorem eval_or (dot : List (Bytes × TVal)) (f g : Bytes) (a b : Bool) (hf : dot.lookup f = some (.bool a)) (hg : dot.lookup g = some (.bool b)) :
    (TExpr.or (.field f) (.field g)).eval dot = some (.bool (a || b)) := by
  cases a <;> simp [TExpr.eval, hf, hg, TVal.truth]
theorem eval_and {dot : List (Bytes × TVal)} {e e' : TExpr} {a b : Bool} (hf : e.eval dot = some (.bool a)) (hg : e'.eval dot = some (.bool b)) :
    (TExpr.and e e').eval dot = some (.bool (a && b)) := by
  cases a <;> simp [TExpr.eval, hf, hg, TVal.truth]

theorem exec_cond {dot : List (Bytes × TVal)} {e : TExpr} {y n k : TNode} {b : Bool} {s s' r : Bytes} (he : e.eval dot = some (.bool b)) (hy : y.exec dot = some s) (hn : n.exec dot = some s')
    (hk : k.exec dot = some r) : (TNode.cond e y n k).exec dot = some ((if b then s else s') ++ r) := by
  cases b <;> simp [TNode.exec, he, hy, hn, hk, TVal.truth]
theorem exec_flag {dot : List (Bytes × TVal)} {f : Bytes} {y n k : TNode} {b : Bool} {s s' r : Bytes} (he : dot.lookup f = some (.bool b)) (hy : y.exec dot = some s) (hn : n.exec dot = some s')
    (hk : k.exec dot = some r) : (TNode.cond (.field f) y n k).exec dot = some ((if b then s else s') ++ r) := exec_cond (e := .field f) he hy hn hk
theorem exec_text {dot : List (Bytes × TVal)} {t : Bytes} {k : TNode} {r : Bytes} (hk : k.exec dot = some r) : (TNode.text t k).exec dot = some (t ++ r) := by simp [TNode.exec, hk]
theorem exec_show {dot : List (Bytes × TVal)} {f t : Bytes} {k : TNode} {r : Bytes} (he : dot.lookup f = some (.str t)) (hk : k.exec dot = some r) : (TNode.show (.field f) k).exec dot = some (t ++ r) := by
  simp [TNode.exec, TExpr.eval, he, hk, TVal.print]
theorem exec_num {dot : List (Bytes × TVal)} {f : Bytes} {i : Int} {k : TNode} {r : Bytes} (he : dot.lookup f = some (.int i)) (hk : k.exec dot = some r) :
    (TNode.show (.field f) k).exec dot = some (fmtInt i ++ r) := by
  simp [TNode.exec, TExpr.eval, he, hk, TVal.print]
theorem exec_done {dot : List (Bytes × TVal)} : TNode.done.exec dot = some [] := rfl

theorem dot_list (n : Bytes) (f : CgField) (c : Bytes) : (TExpr.or (.field (txt! "IsSlice")) (.field (txt! "IsArray"))).eval (f.dot n c) = some (.bool (f.isSlice || f.isArray)) :=
  eval_or _ _ _ _ _ (dot_isSlice n f c) (dot_isArray n f c)
theorem dot_ptrList (n : Bytes) (f : CgField) (c : Bytes) : (TExpr.and (.field (txt! "IsPtr")) (.or (.field (txt! "IsSlice")) (.field (txt! "IsArray")))).eval (f.dot n c) =
    some (.bool (f.isPtr && (f.isSlice || f.isArray))) := eval_and (e := .field (txt! "IsPtr")) (dot_isPtr n f c) (dot_list n f c)

theorem render_write (n : Bytes) (f : CgField) (c : Bytes) : render writeTemplate (f.dot n c) = some (txt! "\n\tif err = e.Write" ++ (methodName (methodOf f.type) ++ (txt! "(" ++
    ((if f.isPtr then txt! "(*" else []) ++ (txt! "v." ++ (n ++ ((if f.isPtr then txt! ")" else []) ++ ((if f.isSlice || f.isArray then txt! "[i]" else []) ++
    txt! "); err != nil {\n\t\treturn err\n\t}")))))))) := by
  unfold render
  rw [writeTemplate_parsed]
  refine (exec_text (exec_show (dot_method n f c) (exec_text (exec_flag (dot_isPtr n f c) (exec_text exec_done) exec_done (exec_text (exec_show (dot_name n f c) (exec_text (exec_flag (dot_isPtr n f c)
    (exec_text exec_done) exec_done (exec_text (exec_cond (dot_list n f c) (exec_text exec_done) exec_done (exec_text exec_done))))))))))).trans ?_
  simp only [List.append_nil, List.nil_append]

theorem render_writeOther (n : Bytes) (f : CgField) (c : Bytes) : render writeOtherTemplate (f.dot n c) = some (txt! "\n\tif err = " ++
    ((if f.isPtr && (f.isSlice || f.isArray) then txt! "(*" else []) ++ (txt! "v." ++ (n ++ ((if f.isPtr && (f.isSlice || f.isArray) then txt! ")" else []) ++
    ((if f.isSlice || f.isArray then txt! "[i]" else []) ++ txt! ".MarshalABI(e); err != nil {\n\t\treturn err\n\t}")))))) := by
  unfold render
  rw [writeOtherTemplate_parsed]
  refine (exec_text (exec_cond (dot_ptrList n f c) (exec_text exec_done) exec_done (exec_text (exec_show (dot_name n f c) (exec_text (exec_cond (dot_ptrList n f c)
    (exec_text exec_done) exec_done (exec_text (exec_cond (dot_list n f c) (exec_text exec_done) exec_done (exec_text exec_done))))))))).trans ?_
  simp only [List.append_nil, List.nil_append]

theorem render_readOther (n : Bytes) (f : CgField) (c : Bytes) : render readOtherTemplate (f.dot n c) = some (txt! "\n\tif err = " ++
    ((if f.isPtr && (f.isSlice || f.isArray) then txt! "(*" else []) ++ (txt! "v." ++ (n ++ ((if f.isPtr && (f.isSlice || f.isArray) then txt! ")" else []) ++
    ((if f.isSlice || f.isArray then txt! "[i]" else []) ++ txt! ".UnmarshalABI(d); err != nil {\n\t\treturn err\n\t}")))))) := by
  unfold render
  rw [readOtherTemplate_parsed]
  refine (exec_text (exec_cond (dot_ptrList n f c) (exec_text exec_done) exec_done (exec_text (exec_show (dot_name n f c) (exec_text (exec_cond (dot_ptrList n f c)
    (exec_text exec_done) exec_done (exec_text (exec_cond (dot_list n f c) (exec_text exec_done) exec_done (exec_text exec_done))))))))).trans ?_
  simp only [List.append_nil, List.nil_append]

theorem render_read (n : Bytes) (f : CgField) (c : Bytes) : render readTemplate (f.dot n c) = some (txt! "\n\t" ++ ((if f.isPtr then txt! "var tmp " ++ (f.type ++ txt! "\n\t") else []) ++ (txt! "if " ++
    ((if f.isPtr then txt! "tmp" else txt! "v." ++ (n ++ (if f.isSlice || f.isArray then txt! "[i]" else []))) ++ (txt! ", err = d.Read" ++ (methodName (methodOf f.type) ++
    (txt! "(); err != nil {\n\t\treturn err\n\t}" ++ (if f.isPtr then txt! "\n\tv." ++ (n ++ ((if f.isSlice || f.isArray then txt! "[i]" else []) ++ txt! " = &tmp")) else [])))))))) := by
  unfold render
  rw [readTemplate_parsed]
  refine (exec_text (exec_flag (dot_isPtr n f c) (exec_text (exec_show (dot_type n f c) (exec_text exec_done))) exec_done (exec_text (exec_flag (dot_isPtr n f c) (exec_text exec_done)
    (exec_text (exec_show (dot_name n f c) (exec_text (exec_cond (dot_list n f c) (exec_text exec_done) exec_done (exec_text exec_done)))))
    (exec_text (exec_show (dot_method n f c) (exec_text (exec_flag (dot_isPtr n f c) (exec_text (exec_show (dot_name n f c) (exec_text (exec_cond (dot_list n f c) (exec_text exec_done) exec_done
      (exec_text exec_done))))) exec_done (exec_text exec_done))))))))).trans ?_
  simp only [List.append_nil, List.nil_append]

theorem render_writeSlice (n : Bytes) (f : CgField) (c : Bytes) : render writeSliceTemplate (f.dot n c) = some (txt! "\n\tlength = len(" ++ ((if f.isPtr then txt! "*" else []) ++ (txt! "v." ++ (n ++
    (txt! ")\n    if err = e.WriteVaruint(uint(length)); err != nil {\n\t\treturn err\n\t}\n\tfor i := 0; i < length; i++ {" ++ (c ++ txt! "\n\t}")))))) := by
  unfold render
  rw [writeSliceTemplate_parsed]
  refine (exec_text (exec_flag (dot_isPtr n f c) (exec_text exec_done) exec_done (exec_text (exec_show (dot_name n f c) (exec_text (exec_show (dot_code n f c) (exec_text exec_done))))))).trans ?_
  simp only [List.append_nil]

theorem render_readSlice (n : Bytes) (f : CgField) (c : Bytes) : render readSliceTemplate (f.dot n c) = some (txt! "\n\tif length, err = d.ReadVaruint(); err != nil {\n\t\treturn err\n\t}\n\tv." ++ (n ++
    (txt! " = make([]" ++ (f.type ++ (txt! ", length)\n\tfor i := 0; i < int(length); i++ {" ++ (c ++ txt! "\n\t}")))))) := by
  unfold render
  rw [readSliceTemplate_parsed]
  refine (exec_text (exec_show (dot_name n f c) (exec_text (exec_show (dot_type n f c) (exec_text (exec_show (dot_code n f c) (exec_text exec_done))))))).trans ?_
  simp only [List.append_nil]

theorem render_writeArray (n : Bytes) (f : CgField) (c : Bytes) : render writeArrayTemplate (f.dot n c) = some (txt! "\n\tfor i := 0; i < " ++ (fmtInt f.arrayLen ++ (txt! "; i++ {" ++ (c ++ txt! "\n\t}")))) := by
  unfold render
  rw [writeArrayTemplate_parsed]
  refine (exec_text (exec_num (dot_arrayLen n f c) (exec_text (exec_show (dot_code n f c) (exec_text exec_done))))).trans ?_
  simp only [List.append_nil]

theorem render_readArray (n : Bytes) (f : CgField) (c : Bytes) : render readArrayTemplate (f.dot n c) = some (txt! "\n\tfor i := 0; i < " ++ (fmtInt f.arrayLen ++ (txt! "; i++ {" ++ (c ++ txt! "\n\t}")))) := by
  unfold render
  rw [readArrayTemplate_parsed]
  refine (exec_text (exec_num (dot_arrayLen n f c) (exec_text (exec_show (dot_code n f c) (exec_text exec_done))))).trans ?_
  simp only [List.append_nil]

theorem render_writeOptional (n : Bytes) (f : CgField) (c : Bytes) : render writeOptionalTemplate (f.dot n c) = some (txt! "\n\texists = v." ++ (n ++ (txt! " != nil" ++
    ((if f.isOptional then txt! "\n\tif err = e.WriteBool(exists); err != nil {\n\t\treturn err\n\t}" else []) ++ (txt! "\n\tif exists {" ++ (c ++ (txt! "\n\t}" ++
    (if !f.isOptional then txt! " else {\n\t\treturn errors.New(\"encountered nil for non-optional field: " ++ (n ++ txt! "\")\n\t}") else [])))))))) := by
  unfold render
  rw [writeOptionalTemplate_parsed]
  have hn : (TExpr.not (.field (txt! "IsOptional"))).eval (f.dot n c) = some (.bool !f.isOptional) := by
    simp [TExpr.eval, dot_isOptional, TVal.truth]
  refine (exec_text (exec_show (dot_name n f c) (exec_text (exec_flag (dot_isOptional n f c) (exec_text exec_done) exec_done (exec_text (exec_show (dot_code n f c) (exec_text (exec_cond hn
    (exec_text (exec_show (dot_name n f c) (exec_text exec_done))) exec_done (exec_text exec_done))))))))).trans ?_
  simp only [List.append_nil]

theorem render_readOptional (n : Bytes) (f : CgField) (c : Bytes) : render readOptionalTemplate (f.dot n c) =
    some (txt! "\n\tif exists, err = d.ReadBool(); err != nil {\n\t\treturn err\n\t}\n\tif exists {" ++ (c ++ txt! "\n\t}")) := by
  unfold render
  rw [readOptionalTemplate_parsed]
  refine (exec_text (exec_show (dot_code n f c) (exec_text exec_done))).trans ?_
  simp only [List.append_nil]

/-- All the code, one field after the other -/
theorem exec_codes (l : List (Bytes × CgField × Bytes)) : (l.map fun f => f.2.1.dot f.1 f.2.2).mapM (fun d => (TNode.text [] (.show (.field (txt! "Code")) (.text [] .done))).exec d) =
    some (l.map fun f => f.2.2) := by
  induction l with
  | nil => rfl
  | cons f l ih =>
    rw [List.map_cons, List.mapM_cons, ih, exec_text (exec_show (dot_code f.1 f.2.1 f.2.2) (exec_text exec_done))]
    simp

theorem exec_range {dot : List (Bytes × TVal)} {f : Bytes} {body k : TNode} {l : List (List (Bytes × TVal))} {ss : List Bytes} {r : Bytes} (he : dot.lookup f = some (.list l))
    (hb : l.mapM (fun d => body.exec d) = some ss) (hk : k.exec dot = some r) : (TNode.range (.field f) body k).exec dot = some (ss.flatten ++ r) := by
  simp [TNode.exec, TExpr.eval, he, hb, hk]

theorem render_marshal (s : Bytes) (d : FnDecls) (l : List (Bytes × CgField × Bytes)) : render marshalTemplate (ctxDot s d l) = some (txt! "\nfunc (v " ++ (s ++
    (txt! ") MarshalABI(e *abi.Encoder) error {\n\tvar err error" ++ ((if d.usesExists then txt! "\n\tvar exists bool" else []) ++ ((if d.usesLength then txt! "\n\tvar length int" else []) ++
    ((l.map fun f => f.2.2).flatten ++ txt! "\n\treturn err\n}\n")))))) := by
  unfold render
  rw [marshalTemplate_parsed]
  refine (exec_text (exec_show (ctx_structName s d l) (exec_text (exec_flag (ctx_usesExists s d l) (exec_text exec_done) exec_done (exec_text (exec_flag (ctx_usesLength s d l) (exec_text exec_done) exec_done
    (exec_text (exec_range (ctx_fields s d l) (exec_codes l) (exec_text exec_done))))))))).trans ?_
  simp only [List.append_nil, List.nil_append]

theorem render_unmarshal (s : Bytes) (d : FnDecls) (l : List (Bytes × CgField × Bytes)) : render unmarshalTemplate (ctxDot s d l) = some (txt! "\nfunc (v *" ++ (s ++
    (txt! ") UnmarshalABI(d *abi.Decoder) error {\n\tvar err error" ++ ((if d.usesExists then txt! "\n\tvar exists bool" else []) ++ ((if d.usesLength then txt! "\n\tvar length uint" else []) ++
    ((l.map fun f => f.2.2).flatten ++ txt! "\n\treturn err\n}\n")))))) := by
  unfold render
  rw [unmarshalTemplate_parsed]
  refine (exec_text (exec_show (ctx_structName s d l) (exec_text (exec_flag (ctx_usesExists s d l) (exec_text exec_done) exec_done (exec_text (exec_flag (ctx_usesLength s d l) (exec_text exec_done) exec_done
    (exec_text (exec_range (ctx_fields s d l) (exec_codes l) (exec_text exec_done))))))))).trans ?_
  simp only [List.append_nil, List.nil_append]

end Verif
