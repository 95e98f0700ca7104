import Verif.Model.Reflect
/-! # Types whose codecs report every failure -/
namespace Verif

/-- All chain types but those of which C10_violated and C66_violated speak. -/
def ChainTy.Firm (c : ChainTy) : Prop := c ≠ .permissionLevel ∧ c ≠ .action ∧ c ≠ .transaction

mutual
/-- No field is a binary extension; with s = false, no part is a PermissionLevel, Action or Transaction. -/
def Ty.NoExt (s : Bool) : Ty → Prop
  | .chain c => s = true ∨ c.Firm
  | .ptr t => t.NoExt s
  | .slice t => t.NoExt s
  | .array _ t => t.NoExt s
  | .map k e => k.NoExt s ∧ e.NoExt s
  | .struct fs => fs.NoExt s
  | _ => True
def Fields.NoExt (s : Bool) : Fields → Prop
  | .nil => True
  | .cons _ tag t fs => tag ≠ .extension ∧ t.NoExt s ∧ fs.NoExt s
end

mutual
/-- No field is optional, no part is a PermissionLevel, Action or Transaction. -/
def Ty.NoOpt : Ty → Prop
  | .chain c => c.Firm
  | .ptr t => t.NoOpt
  | .slice t => t.NoOpt
  | .array _ t => t.NoOpt
  | .map k e => k.NoOpt ∧ e.NoOpt
  | .struct fs => fs.NoOpt
  | _ => True
def Fields.NoOpt : Fields → Prop
  | .nil => True
  | .cons _ tag t fs => tag ≠ .optional ∧ t.NoOpt ∧ fs.NoOpt
end

end Verif
