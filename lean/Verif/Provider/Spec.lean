/-!
# What a batch provider must deliver
-/

namespace Psi.Provider.Spec

variable {β : Type}

/-- Results of the first `n` calls of a reader, with the state it is in after them. -/
def reads {σ E : Type} (read : σ → Except E (β × σ)) : Nat → σ → Except E (List β × σ)
  | 0, s => .ok ([], s)
  | n + 1, s =>
    match read s with
    | .error e => .error e
    | .ok (b, s') =>
      match reads read n s' with
      | .error e => .error e
      | .ok (bs, s'') => .ok (b :: bs, s'')

/-- The batches `outs` cut the sequence `rows` into pieces of length `batch` (the last piece may be
shorter) in order, followed by empty batches only. -/
structure Delivers (rows : List β) (batch : Nat) (outs : List (List β)) : Prop where
  concat : outs.flatten = rows.take (outs.length * batch)
  size : ∀ i b, outs[i]? = some b → b.length = min batch (rows.length - i * batch)

/-- `x` stands at the position `orig` of `items`; together the original positions are all positions, each
once. -/
structure Shuffles {α : Type} (items : List α) (out : List (α × Nat)) : Prop where
  all : (out.map Prod.snd).Perm (List.range items.length)
  back : ∀ x i, (x, i) ∈ out → items[i]? = some x

end Psi.Provider.Spec
