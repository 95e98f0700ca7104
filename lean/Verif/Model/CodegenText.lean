import Verif.Model.Codegen
import Verif.Model.Template
import Verif.Vectors.Lit
/-! # pkg/codegen/codegen.go: the text that GenUnmarshalFn returns

Model/Codegen has the templates as syntax trees; here they are the text of /repo, read by the model of text/template. -/
namespace Verif
open Vectors

/-! ## The templates -/

/-- codegen.go:11-25 -/
def marshalTemplate : Bytes := txt! "\nfunc (v {{.StructName}}) MarshalABI(e *abi.Encoder) error {\n\tvar err error\n\t{{- if .UsesExists }}\n\tvar exists bool\n\t{{- end -}}\n\t{{- if .UsesLength }}\n\tvar length int\n\t{{- end -}}\n\t{{- range .Fields -}}\n\t{{- .Code -}}\n\t{{- end }}\n\treturn err\n}\n"
/-- codegen.go:27-41 -/
def unmarshalTemplate : Bytes := txt! "\nfunc (v *{{.StructName}}) UnmarshalABI(d *abi.Decoder) error {\n\tvar err error\n\t{{- if .UsesExists }}\n\tvar exists bool\n\t{{- end -}}\n\t{{- if .UsesLength }}\n\tvar length uint\n\t{{- end -}}\n\t{{- range .Fields -}}\n\t{{- .Code -}}\n\t{{- end }}\n\treturn err\n}\n"
/-- codegen.go:43-52 -/
def writeTemplate : Bytes := txt! "\n\tif err = e.Write{{ .Method }}(\n\t\t{{- if .IsPtr }}(*{{ end -}}\n\t\tv.{{ .Name -}}\n\t\t{{- if .IsPtr }}){{ end -}}\n\t\t{{- if or .IsSlice .IsArray }}[i]{{ end -}}\n\t); err != nil {\n\t\treturn err\n\t}"
/-- codegen.go:54-68 -/
def readTemplate : Bytes := txt! "\n\t{{ if .IsPtr -}}\n\tvar tmp {{ .Type }}\n\t{{ end -}}\n\tif {{ if .IsPtr }}tmp{{ else -}}\n\t\tv.{{ .Name }}\n\t\t{{- if or .IsSlice .IsArray }}[i]{{ end -}}\n\t{{- end -}}\n\t, err = d.Read{{ .Method }}(); err != nil {\n\t\treturn err\n\t}\n\t{{- if .IsPtr }}\n\tv.{{ .Name }}{{ if or .IsSlice .IsArray }}[i]{{ end }} = &tmp\n\t{{- end }}"
/-- codegen.go:70-78 -/
def writeOtherTemplate : Bytes := txt! "\n\tif err = {{ if and .IsPtr (or .IsSlice .IsArray) }}(*{{ end -}}\n\t\tv.{{ .Name -}}\n\t\t{{- if and .IsPtr (or .IsSlice .IsArray) }}){{ end -}}\n\t\t{{- if or .IsSlice .IsArray }}[i]{{ end -}}\n\t.MarshalABI(e); err != nil {\n\t\treturn err\n\t}"
/-- codegen.go:80-88 -/
def readOtherTemplate : Bytes := txt! "\n\tif err = {{ if and .IsPtr (or .IsSlice .IsArray) }}(*{{ end -}}\n\t\tv.{{ .Name -}}\n\t\t{{- if and .IsPtr (or .IsSlice .IsArray) }}){{ end -}}\n\t\t{{- if or .IsSlice .IsArray }}[i]{{ end -}}\n\t.UnmarshalABI(d); err != nil {\n\t\treturn err\n\t}"
/-- codegen.go:90-98 -/
def writeSliceTemplate : Bytes := txt! "\n\tlength = len({{ if .IsPtr }}*{{ end }}v.{{ .Name }})\n    if err = e.WriteVaruint(uint(length)); err != nil {\n\t\treturn err\n\t}\n\tfor i := 0; i < length; i++ {\n\t\t{{- .Code }}\n\t}"
/-- codegen.go:100-108 -/
def readSliceTemplate : Bytes := txt! "\n\tif length, err = d.ReadVaruint(); err != nil {\n\t\treturn err\n\t}\n\tv.{{ .Name }} = make([]{{ .Type }}, length)\n\tfor i := 0; i < int(length); i++ {\n\t\t{{- .Code }}\n\t}"
/-- codegen.go:110-114 -/
def writeArrayTemplate : Bytes := txt! "\n\tfor i := 0; i < {{ .ArrayLen }}; i++ {\n\t\t{{- .Code }}\n\t}"
/-- codegen.go:116-120 -/
def readArrayTemplate : Bytes := txt! "\n\tfor i := 0; i < {{ .ArrayLen }}; i++ {\n\t\t{{- .Code }}\n\t}"
/-- codegen.go:122-136 -/
def writeOptionalTemplate : Bytes := txt! "\n\texists = v.{{ .Name }} != nil\n\t{{- if .IsOptional }}\n\tif err = e.WriteBool(exists); err != nil {\n\t\treturn err\n\t}\n\t{{- end }}\n\tif exists {\n\t\t{{- .Code }}\n\t}\n\t{{- if not .IsOptional }} else {\n\t\treturn errors.New(\"encountered nil for non-optional field: {{ .Name }}\")\n\t}\n\t{{- end -}}\n"
/-- codegen.go:138-145 -/
def readOptionalTemplate : Bytes := txt! "\n\tif exists, err = d.ReadBool(); err != nil {\n\t\treturn err\n\t}\n\tif exists {\n\t\t{{- .Code }}\n\t}"
/-- codegen.go:147-155 -/
def writeMapTemplate : Bytes := txt! "\n\tlength = len({{ if .IsPtr }}*{{ end }}v.{{ .Name }})\n    if err = e.WriteVaruint(uint(length)); err != nil {\n\t\treturn err\n\t}\n\tfor i := 0; i < length; i++ {\n\t\t{{- .Code }}\n\t}"

/-! ## Rendering -/

/-- codegen.go:315-322 `render`; `none` is the panic of :319, or of `template.Must` when the program starts -/
def render (tpl : Bytes) (dot : List (Bytes × TVal)) : Option Bytes := do
  let t ← parseTemplate tpl
  t.exec dot

/-- codegen.go:324-326 `indent` -/
def indent (s : Bytes) : Bytes := 9 :: s.flatMap fun c => if c = 10 then [10, 9] else [c]

/-- codegen.go:221-252: the field Method -/
def methodName : Option Method → Bytes
  | none => []
  | some .bytes => asc "Bytes"
  | some (.basic b) => match b with
    | .bool => asc "Bool"
    | .string => asc "String"
    | .u8 => asc "Uint8"
    | .u16 => asc "Uint16"
    | .u32 => asc "Uint32"
    | .u64 => asc "Uint64"
    | .i8 => asc "Int8"
    | .i16 => asc "Int16"
    | .i32 => asc "Int32"
    | .i64 => asc "Int64"
    | .f32 => asc "Float32"
    | .f64 => asc "Float64"
    | .int => asc "Varint"
    | .uint => asc "Varuint"

/-- codegen.go:164-174: a `field` as the templates see it -/
def CgField.dot (name : Bytes) (f : CgField) (code : Bytes) : List (Bytes × TVal) :=
  [(asc "Name", .str name), (asc "Type", .str f.type), (asc "IsPtr", .bool f.isPtr), (asc "IsOptional", .bool f.isOptional), (asc "IsSlice", .bool f.isSlice),
    (asc "IsArray", .bool f.isArray), (asc "ArrayLen", .int f.arrayLen), (asc "Code", .str code), (asc "Method", .str (methodName (methodOf f.type)))]

/-- codegen.go:263-277, 293-306: Code is indented and put into a further template -/
def CgField.wrap (f : CgField) (name : Bytes) (uses : Bool) (tpl code : Bytes) : Option Bytes :=
  if uses then render tpl (f.dot name (indent code)) else some code

/-- codegen.go:258-277 for one field: Code afterwards. The Code of :262 is rendered with Code still empty. -/
def writeCode (name : Bytes) (f : CgField) : Option Bytes := do
  let code ← render (if methodName (methodOf f.type) = [] then writeOtherTemplate else writeTemplate) (f.dot name [])
  let code ← f.wrap name f.isSlice writeSliceTemplate code
  let code ← f.wrap name f.isArray writeArrayTemplate code
  f.wrap name (f.isOptional || f.isPtr) writeOptionalTemplate code

/-- codegen.go:288-306 for one field. Code still holds what MarshalABI got, which the templates of :292 do not use; it is left out. -/
def readCode (name : Bytes) (f : CgField) : Option Bytes := do
  let code ← render (if methodName (methodOf f.type) = [] then readOtherTemplate else readTemplate) (f.dot name [])
  let code ← f.wrap name f.isSlice readSliceTemplate code
  let code ← f.wrap name f.isArray readArrayTemplate code
  f.wrap name (f.isOptional) readOptionalTemplate code

/-- codegen.go:157-162: `ctx` as the templates see it -/
def ctxDot (structName : Bytes) (d : FnDecls) (fields : List (Bytes × CgField × Bytes)) : List (Bytes × TVal) :=
  [(asc "StructName", .str structName), (asc "UsesExists", .bool d.usesExists), (asc "UsesLength", .bool d.usesLength),
    (asc "Fields", .list (fields.map fun f => f.2.1.dot f.1 f.2.2))]

/-- codegen.go:220-311 -/
def genText (structName : Bytes) (fields : List (Bytes × CgField)) : Option Bytes := do
  let ws ← fields.mapM fun f => writeCode f.1 f.2
  let rv ← render marshalTemplate (ctxDot structName (writeDecls (fields.map Prod.snd)) (fields.zipWith (fun f c => (f.1, f.2, c)) ws))
  let rs ← fields.mapM fun f => readCode f.1 f.2
  let rv' ← render unmarshalTemplate (ctxDot structName (readDecls (fields.map Prod.snd)) (fields.zipWith (fun f c => (f.1, f.2, c)) rs))
  pure (rv ++ 10 :: rv')

/-- codegen.go:176-313 `GenUnmarshalFn`, of a struct type with this name and these fields: name, type as reflect prints it, value of the `eosio` tag. `none` is a panic, as with anything that is not
a struct (:178-180). -/
def genUnmarshalFn (structName : Bytes) (fields : List (Bytes × Bytes × Tag)) : Option Bytes := do
  let fs ← fields.mapM fun f => do
    let cg ← cgField f.2.1 f.2.2
    pure (f.1, cg)
  genText structName fs

end Verif
