{"l06": "equivalent program: the edited branch gives the same result, the claim stays true", "y14": "equivalent program: the extra valuation changes nothing but the cached discount curve"}