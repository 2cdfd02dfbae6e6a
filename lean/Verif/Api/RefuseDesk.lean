import Verif.Api.RefuseSteps
import Verif.Api.DeskOps
/-!
# Refused calls and the desk
-/
namespace Verif.Api
open Verif XPath Spec

theorem fixes_refused (env : Env) (o : Refusal) : Fixes (o.call.run env) := by
  cases o with
  | setIcon => exact fixes_setSub ..
  | setName => exact fixes_setSub ..
  | setNotes => exact fixes_setSub ..
  | setTags => exact fixes_setSub ..
  | setField => exact fixes_setStd ..
  | setCustom => exact fixes_setCustom ..
  | badKey => exact fixes_setCustom ..
  | noKey => exact fixes_deleteCustom ..
  | setAutoText => exact fixes_setAuto ..
  | addFile => exact fixes_bind (fixes_addAttachment ..) fun _ => fixes_pure _
  | setFileName => exact fixes_setAttName ..
  | addGroup => exact fixes_bind (fixes_addGroup ..) fun _ => fixes_pure _
  | addEntry => exact fixes_bind (fixes_addEntry ..) fun _ => fixes_pure _
  | delete => exact fixes_delete ..
  | deleteHistory => exact fixes_deleteHistory ..

section
variable {s s' : Db} {d m r : Nat}

theorem refused_keeps (env : Env) (hs : Sound s) (hk : Skeleton s.heap d m r) (o : Refusal) (ho : o.Ask env (vaultOf s)) :
    Keeps (metaFrame s.heap m) s (o.call.run env) := by
  have E : ∀ {x}, (vaultOf s).IsElem x → ¬ NoCard (s.heap.tag x) := fun ⟨_, h⟩ => (card_inv h).1
  have EE : ∀ {x}, (vaultOf s).IsEntry x → ¬ NoCard (s.heap.tag x) := fun ⟨_, h, _⟩ => (card_inv h).1
  have EG : ∀ {x}, (vaultOf s).IsGroup x → ¬ NoCard (s.heap.tag x) := fun ⟨_, h, _⟩ => (card_inv h).1
  have own : ∀ {x}, ¬ NoCard (s.heap.tag x) → Own (metaFrame s.heap m) s x := fun h => meta_own hs hk h
  have mov : ∀ {x}, ¬ NoCard (s.heap.tag x) → Movable (metaFrame s.heap m) s x := fun h =>
    meta_movable hk (own h).ne (own h).mem (own h).hist (own h).free
  cases o with
  | setIcon x v => exact keeps_setSub (own (E ho.1)) id nofun nofun
  | setName g v => exact keeps_setSub (own (EG ho.1)) id nofun nofun
  | setNotes g v => exact keeps_setSub (own (EG ho.1)) id nofun nofun
  | setTags e ts => exact keeps_setSub (own (EE ho.1)) id nofun nofun
  | setField e f v => exact keeps_setStd env (own (EE ho.1)) id nofun nofun
  | setCustom e k v p => exact keeps_setCustom env (own (EE ho.1)) id (.inr fun _ h => h) nofun nofun
  | badKey e k v p => exact keeps_setCustom env (own (EE ho.1)) id (.inr fun _ h => h) nofun nofun
  | noKey e k => exact keeps_deleteCustom env (own (EE ho.1)) id (.inr fun _ h => h)
  | setAutoText e w v => exact keeps_setAuto (own (EE ho.1))
  | addFile e i n => exact void_keeps (keeps_addAttachment (own (EE ho.1)) id nofun nofun)
  | setFileName e a v =>
    obtain ⟨he, ⟨f, hf, rfl⟩, _⟩ := ho
    obtain ⟨k1, k2⟩ := all_sub (has_file.mp hf).2.1
    refine keeps_setAttName ((own (EE he)).sub (meta_good hs hk) k1 ?_)
    rw [k2]
    show "Binary".toList ≠ "KeePassFile".toList
    decide
  | addGroup g n i t =>
    have o := own (EG ho.1)
    exact void_keeps (keeps_addGroup env o.mem o.ne o.free id nofun nofun)
  | addEntry g a f =>
    have o := own (EG ho.1)
    exact void_keeps (keeps_addEntry env o.mem o.ne o.free id nofun nofun)
  | delete x => exact keeps_delete (mov (E ho.1))
  | deleteHistory e h =>
    exact keeps_deleteHistory (own (EE ho.1)) (fun k hk' => ⟨((own (EE ho.1)).kid (meta_good hs hk) (all_sub hk').1).2.2, fun _ h => h⟩) id

/-- They leave the desk alone. -/
theorem refused_apart (env : Env) (hs : Sound s) (o : Refusal) (ho : o.Ask env (vaultOf s)) : deskOf (o.call.run env s).2 = deskOf s := by
  obtain ⟨d, m, r, hk⟩ := hs.skeleton
  exact desk_same hk (Props.C52_structure env hs.inv hk (.step o.call (.refl s) (refused_typed ho))).2
    (fun i hi => (refused_keeps env hs hk o ho (meta_good hs hk)).1.frozen i hi) ((fixes_refused env o).eq s)

end
end Verif.Api
