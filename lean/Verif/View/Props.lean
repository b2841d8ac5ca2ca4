import Verif.View.Search
import Verif.View.Cut
import Verif.View.Split
import Verif.View.Compare
/-! All properties of the views: C12, C13 (`Cut`), C14, C27, C61 (`Search`), C15 (`Split`), C17 (`Compare`). -/
