import Verif.Model.Multi
import Verif.Model.Attr
/-
What a caller holds after `key_presses` or `channel_config`: a reference to the object inside the
state, not a copy.
-/

namespace VgmX

/-- `State.key_presses(ch)`, state.py:154-155: the list object itself. -/
def HState.keyPressesRef (s : HState) (ch : Int) : Except PyErr Nat := pyListGet s.pressRefs ch

/-- `State.channel_config(ch)`, state.py:157-158: the object itself. -/
def HState.channelRef (s : HState) (ch : Int) : Except PyErr Nat := pyListGet s.chanRefs ch

end VgmX
