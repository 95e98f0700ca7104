import Verif.Lemmas.FailsAll
/-! Which errors `Decode` returns. -/
namespace Verif

variable {P : Prop}

/-- The error is one of those of the reader and of `Decode`. -/
def Knows (F : Err → Bytes → Failure → Prop) : Prop := ∀ (P : Prop) (fin : Err) (s : Bytes) (x : Failure), F fin s x → x.Known fin P

theorem known_msg {fin : Err} {msg : String} (h : msg ∈ decodeMessages) : Failure.Known fin P (.err (.msg msg)) := .inr (.inr ⟨msg, h, rfl⟩)
theorem known_fin {fin : Err} {p : Prop} [Decidable p] : Failure.Known fin P (.err (if p ∧ fin = .eof then .unexpectedEOF else fin)) := by
  split
  · rename_i h
    exact .inr (.inl ⟨h.2, rfl⟩)
  · exact .inl rfl

theorem torn_known (n : Nat) : Knows (Torn n) := by
  rintro P fin s _ ⟨_, rfl⟩
  exact known_fin

theorem leb_known : Knows LebFault := by
  rintro P fin s x (⟨_, _, rfl⟩ | ⟨_, _, _, _, rfl⟩)
  · split
    · rename_i h
      exact .inr (.inl ⟨h.2.1, rfl⟩)
    · exact .inl rfl
  · exact known_msg (by decide)

theorem block_known (n : Nat) : Knows (BlockFault n) := by
  rintro P fin s x (⟨_, rfl⟩ | ⟨_, _, rfl⟩ | ⟨_, h⟩)
  · exact known_msg (by decide)
  · exact trivial
  · exact torn_known n _ _ _ _ h

theorem Knows.after {F : Err → Bytes → Failure → Prop} (h : Knows F) (n : Nat) : Knows (After n F) := by
  rintro P fin _ x ⟨_, s, _, rfl, h1⟩
  exact h _ _ _ _ h1

theorem Knows.afterLeb {F : Nat → Err → Bytes → Failure → Prop} (h : ∀ n, Knows (F n)) : Knows (AfterLeb F) := by
  rintro P fin _ x ⟨n, _, s, _, rfl, h1⟩
  exact h n _ _ _ _ h1

theorem Knows.or {F K : Err → Bytes → Failure → Prop} (h : Knows F) (h' : Knows K) : Knows fun fin s x => F fin s x ∨ K fin s x := fun P fin s x h1 => h1.elim (h P fin s x) (h' P fin s x)

theorem sized_known : Knows SizedFault := leb_known.or (.afterLeb block_known)

theorem among_known {α : Type} {R : α → Bytes → Bytes → Prop} {F : Bytes → Failure → Prop} {fin : Err} (h : ∀ s x, F s x → x.Known fin P) {n : Nat} {s : Bytes} {x : Failure} (h1 : FaultAmong R F n s x) : x.Known fin P := by
  obtain ⟨_, m, _, _, h2⟩ := h1
  exact h _ _ h2

theorem slice_known {α : Type} {R : α → Bytes → Bytes → Prop} {F : Bytes → Failure → Prop} {fin : Err} (h : ∀ s x, F s x → x.Known fin P) {size : Nat} {s : Bytes} {x : Failure} (h1 : FaultSlice size R F fin s x) : x.Known fin P := by
  rcases h1 with h1 | ⟨n, _, s', _, _, ⟨_, rfl⟩ | ⟨_, _, h1⟩⟩
  · exact leb_known _ _ _ _ h1
  · exact trivial
  · exact among_known h h1

theorem loop_known {α : Type} {R : α → Bytes → Bytes → Prop} {F : Bytes → Failure → Prop} {fin : Err} (h : ∀ s x, F s x → x.Known fin P) {s : Bytes} {x : Failure} (h1 : FaultLoop R F fin s x) : x.Known fin P := by
  rcases h1 with h1 | ⟨n, _, s', _, _, h1⟩
  · exact leb_known _ _ _ _ h1
  · exact among_known h h1

theorem basic_known (b : Basic) : Knows b.Failure := by
  cases b
  case string => exact sized_known
  case int => exact leb_known
  case uint => exact leb_known
  all_goals exact torn_known _

theorem perm_known : Knows PermFault := by
  rintro P fin s x (⟨_, rfl⟩ | h)
  · exact .inl rfl
  · exact (torn_known 8).after 8 _ _ _ _ h

theorem action_known : Knows ActionFault := by
  rintro P fin s x (⟨_, rfl⟩ | ⟨_, s', _, _, h | ⟨_, _, _, _, _, _, _, _, _, h⟩⟩)
  · exact .inl rfl
  · exact loop_known (perm_known P fin) h
  · exact sized_known _ _ _ _ h

theorem extension_known : Knows ExtensionFault := (torn_known 2).or (sized_known.after 2)
theorem header_known : Knows HeaderFault := (torn_known 4).or (((torn_known 2).after 4).or (((torn_known 4).after 6).or ((leb_known.after 10).or ((Knows.after (.afterLeb fun _ => torn_known 1) 10).or (Knows.after (.afterLeb fun _ => leb_known.after 1) 10)))))

theorem transaction_known : Knows TransactionFault := by
  rintro P fin s x (h | ⟨_, _, _, _, _, h | ⟨_, _, _, _, _, h | ⟨_, _, _, _, _, h⟩⟩⟩)
  · exact header_known _ _ _ _ h
  · exact slice_known (action_known P fin) h
  · exact slice_known (action_known P fin) h
  · exact slice_known (extension_known P fin) h

theorem key_known : Knows KeyFault := by
  rintro P fin s x (h | ⟨_, _, _, ⟨_, h⟩ | ⟨_, rfl⟩ | ⟨_, h | h | ⟨rfl, _⟩⟩⟩)
  · exact torn_known _ _ _ _ _ h
  · exact torn_known _ _ _ _ _ h
  · exact known_msg (by decide)
  · exact torn_known _ _ _ _ _ h
  · exact sized_known.after _ _ _ _ _ h
  · exact trivial

theorem sig_known : Knows SigFault := by
  rintro P fin s x (h | ⟨_, _, _, ⟨_, h⟩ | ⟨_, rfl⟩ | ⟨_, h | h | ⟨_, _, _, _, _, _, _, h | ⟨rfl, _⟩⟩⟩⟩)
  · exact torn_known _ _ _ _ _ h
  · exact torn_known _ _ _ _ _ h
  · exact known_msg (by decide)
  · exact torn_known _ _ _ _ _ h
  · exact sized_known.after _ _ _ _ _ h
  · exact sized_known _ _ _ _ h
  · exact trivial

theorem chain_known (c : ChainTy) : Knows c.Failure := by
  cases c
  case action => exact action_known
  case blob => exact sized_known
  case bytes => exact sized_known
  case permissionLevel => exact perm_known
  case publicKey => exact key_known
  case signature => exact sig_known
  case transaction => exact transaction_known
  case transactionExtension => exact extension_known
  case transactionHeader => exact header_known
  case asset => exact (torn_known 8).or ((torn_known 8).after 8)
  case int128 => exact (torn_known 8).or ((torn_known 8).after 8)
  case uint128 => exact (torn_known 8).or ((torn_known 8).after 8)
  case extendedAsset => exact (torn_known 8).or (((torn_known 8).after 8).or ((torn_known 8).after 16))
  all_goals exact torn_known _

theorem refuses_known {m : Mode} {x : Failure} (fin : Err) (h : m.Refuses x) : x.Known fin P := by
  rcases h with ⟨_, rfl⟩ | ⟨_, rfl⟩ <;> exact known_msg (by decide)
theorem unsupported_known {x : Failure} (fin : Err) (h : Unsupported x) : x.Known fin P := by
  rw [show x = _ from h]
  exact known_msg (by decide)
theorem known_eof {fin : Err} (h : Failure.Known fin P (.err .eof)) : fin = .eof := by
  rcases h with h | ⟨h, _⟩ | ⟨_, _, h⟩
  · exact h.symm
  · exact h
  · cases h

mutual
theorem ty_knows {P : Prop} (fin : Err) : (t : Ty) → P ∨ t.Refless → (m : Mode) → (s : Bytes) → (x : Failure) → t.Fails fin m s x → x.Known fin P
  | .basic b, hr, m, s, x, h => by
      rcases h with ⟨_, h⟩ | ⟨_, _, h⟩ | h
      · exact basic_known b _ _ _ _ h
      · exact unsupported_known fin h
      · exact refuses_known fin h
  | .named b, hr, m, s, x, h => by
      rcases h with ⟨_, ⟨_, h⟩ | ⟨_, h⟩⟩ | h
      · exact basic_known b _ _ _ _ h
      · exact unsupported_known fin h
      · exact refuses_known fin h
  | .unsupported, hr, m, s, x, h => h.elim (fun h => unsupported_known fin h.2) (refuses_known fin)
  | .bytes, hr, m, s, x, h => by
      rcases h with ⟨_, h⟩ | ⟨_, h | ⟨_, _, _, _, _, ⟨_, rfl⟩ | ⟨_, _, rfl⟩⟩⟩ | h
      · exact sized_known _ _ _ _ h
      · exact leb_known _ _ _ _ h
      · exact trivial
      · exact .inl rfl
      · exact refuses_known fin h
  | .chain c, hr, m, s, x, h => h.elim (fun h => chain_known c _ _ _ _ h.2) fun h => refuses_known fin h.2
  | .ptr t, hr, m, s, x, h => ty_knows fin t hr _ s x h
  | .slice t, hr, m, s, x, h => h.elim (fun h => slice_known (fun s x => ty_knows fin t hr .elem s x) h.2) (refuses_known fin)
  | .array n t, hr, m, s, x, h => h.elim (fun h => among_known (fun s x => ty_knows fin t hr .elem s x) h.2) (refuses_known fin)
  | .map k e, hr, m, s, x, h => h.elim (fun h => loop_known (fun s x h => h.elim (ty_knows fin k (hr.imp id (·.1)) .decode s x) fun ⟨_, m, _, h⟩ => ty_knows fin e (hr.imp id (·.2)) .decode m x h) h.2) (refuses_known fin)
  | .struct fs, hr, m, s, x, h => match m, h with
      | .variant i, h => by
        rcases h with ⟨_, rfl⟩ | ⟨_, ⟨_, rfl⟩ | ⟨_, h⟩⟩
        · exact known_msg (by decide)
        · exact trivial
        · exact member_knows fin fs hr i s x h
      | .member, h => refuses_known fin h
      | .elem, h => fields_knows fin fs hr false s x (by simp) h
      | .decode, h => fields_knows fin fs hr false s x (by simp) h
      | .value, h => fields_knows fin fs hr false s x (by simp) h
  | .ref _ _ _, hr, m, s, x, h => by
      rcases h with ⟨_, rfl⟩ | ⟨_, h⟩
      · exact hr.elim id fun h => h.elim
      · exact refuses_known fin h
theorem fields_knows {P : Prop} (fin : Err) : (fs : Fields) → P ∨ fs.Refless → (before : Bool) → (s : Bytes) → (x : Failure) → (before = true → fin = .eof) → fs.Fails fin before s x → x.Known fin P
  | .nil, _, before, s, x, hb, h => by
      rw [h.2]
      exact .inl (hb h.1).symm
  | .cons vis tag t fs, hr, before, s, x, hb, h => match vis, tag, h with
      | .blank, _, h => fields_knows fin fs (hr.imp id (·.2)) before s x hb h
      | .unexported, _, h => by
        rw [show x = .panic from h]
        trivial
      | .exported, .optional, h => by
        rcases h with h | ⟨_, _, h⟩ | ⟨_, _, _, _, h | ⟨_, _, _, h⟩⟩
        · exact torn_known _ _ _ _ _ h
        · exact fields_knows fin fs (hr.imp id (·.2)) before _ x hb h
        · exact ty_knows fin t (hr.imp id (·.1)) .elem _ x h
        · exact fields_knows fin fs (hr.imp id (·.2)) false _ x (by simp) h
      | .exported, .variant, h => by
        rcases h with h | ⟨_, _, _, h | ⟨_, _, _, h⟩⟩
        · exact torn_known _ _ _ _ _ h
        · exact ty_knows fin t (hr.imp id (·.1)) _ _ x h
        · exact fields_knows fin fs (hr.imp id (·.2)) false _ x (by simp) h
      | .exported, .extension, h => by
        rcases h with ⟨h, _⟩ | ⟨h, h'⟩ | ⟨_, _, _, h⟩
        · exact ty_knows fin t (hr.imp id (·.1)) .elem _ x h
        · exact fields_knows fin fs (hr.imp id (·.2)) true _ x (fun _ => known_eof (ty_knows fin t (hr.imp id (·.1)) .elem _ _ h)) h'
        · exact fields_knows fin fs (hr.imp id (·.2)) false _ x (by simp) h
      | .exported, .none, h => by
        rcases h with h | ⟨_, _, _, h⟩
        · exact ty_knows fin t (hr.imp id (·.1)) .elem _ x h
        · exact fields_knows fin fs (hr.imp id (·.2)) false _ x (by simp) h
theorem member_knows {P : Prop} (fin : Err) : (fs : Fields) → P ∨ fs.Refless → (i : Nat) → (s : Bytes) → (x : Failure) → fs.FailsMember fin i s x → x.Known fin P
  | .nil, _, _, _, _, h => h.elim
  | .cons vis _ t _, hr, 0, s, x, h => by
      rcases h with h | ⟨_, rfl, _⟩
      · exact ty_knows fin t (hr.imp id (·.1)) .member s x h
      · trivial
  | .cons _ _ _ fs, hr, n + 1, s, x, h => member_knows fin fs (hr.imp id (·.2)) n s x h
end

end Verif
