{"f08": ["C72_losses"], "v14": ["C71_vasicek_own_dictionary"], "g25": ["C78_membership_partial"], "p03": ["C103_order_independent"], "ex15": ["C138_components"]}